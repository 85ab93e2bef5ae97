import Verif.Model.Drivers
import Verif.Props.Setup
import Verif.Props.Errors

/-!
# C46, C47, C48: the solver scripts
-/

namespace Dxss
open Finset
set_option linter.unusedSectionVars false
variable {V : Type} [AddCommGroup V] [Module ℝ V] {C : Cfg V}

/-! ## C48 -/

/-- `m` is the largest stored column index. -/
def LargestCol (col : List ℕ) (m : ℕ) : Prop := m ∈ col ∧ ∀ c ∈ col, c ≤ m

theorem max?_largest {col : List ℕ} (h : col ≠ []) : ∃ m, col.max? = some m ∧ LargestCol col m := by
  rcases hm : col.max? with _ | m
  · exact absurd (List.max?_eq_none_iff.1 hm) h
  · refine ⟨m, rfl, ?_⟩
    rw [List.max?_eq_some_iff] at hm
    exact hm

/-- C48.  The conversion succeeds exactly when something is stored, keeps the number of rows and all
entries, and has one column more than the largest stored column index. -/
theorem C48_conversion (A : PCsr) (hA : A.Ok) :
    (A.col = [] → getSparseMatrix A = .error .valueError) ∧
    (A.col ≠ [] → ∃ S m, getSparseMatrix A = .ok S ∧ S.rows = A.rows ∧ LargestCol A.col m ∧ S.cols = m + 1 ∧
      S.cols ≤ A.cols ∧
      (∀ i j, csrEntry S.ptr S.col S.val i j = csrEntry A.ptr A.col A.val i j)) := by
  constructor
  · intro h
    simp [getSparseMatrix, csrMatrix, h]
  · intro h
    obtain ⟨m, hm, hl⟩ := max?_largest h
    have hlast : A.ptr.getD (A.ptr.length - 1) 0 = A.col.length := by
      rw [hA.ptr_len]; exact hA.ptr_last
    have hc : ¬ (A.ptr.getD 0 0 ≠ 0 ∨ A.val.length ≠ A.col.length ∨ A.ptr.length = 0 ∨
        A.col.length < A.ptr.getD (A.ptr.length - 1) 0) := by
      rw [hlast, hA.ptr_len, hA.val_len, hA.ptr_zero]
      simp
    refine ⟨{ rows := A.ptr.length - 1, cols := m + 1, ptr := A.ptr, col := A.col, val := A.val }, m,
      ?_, ?_, hl, rfl, ?_, ?_⟩
    · simp only [getSparseMatrix, csrMatrix, hm]
      rw [if_neg hc]
    · simp [hA.ptr_len]
    · exact hA.col_lt m hl.1
    · intro i j; rfl

/-- C48.  A square matrix stays square exactly when its last column has a stored entry. -/
theorem C48_square (A : PCsr) (hA : A.Ok) (hsq : A.rows = A.cols) {S : SCsr} (h : getSparseMatrix A = .ok S) :
    (S.rows = S.cols ↔ 0 < A.cols ∧ A.cols - 1 ∈ A.col) := by
  have hne : A.col ≠ [] := by
    intro h0
    rw [(C48_conversion A hA).1 h0] at h
    cases h
  obtain ⟨S', m, h', hr, hl, hc, hle, -⟩ := (C48_conversion A hA).2 hne
  rw [h] at h'
  cases h'
  rw [hr, hsq, hc]
  constructor
  · intro e
    refine ⟨by omega, ?_⟩
    have : A.cols - 1 = m := by omega
    rw [this]; exact hl.1
  · rintro ⟨h0, hmem⟩
    have := hl.2 _ hmem
    omega

/-- C48.  What this means for the scripts: with pypardiso a solver for a square matrix is obtained exactly when the last column has a
stored entry; otherwise `factorize` refuses the converted matrix. -/
theorem C48_solver (B : Backend) (A : Mat) (hA : (B.csr A).Ok) (hsq : (B.csr A).rows = (B.csr A).cols) :
    (0 < (B.csr A).cols ∧ (B.csr A).cols - 1 ∈ (B.csr A).col → ∃ s, pardisoSolver B A = .ok s) ∧
    (¬ (0 < (B.csr A).cols ∧ (B.csr A).cols - 1 ∈ (B.csr A).col) → pardisoSolver B A = .error .valueError) := by
  rcases hS : getSparseMatrix (B.csr A) with e | S
  · have he : e = .valueError ∧ (B.csr A).col = [] := by
      by_cases h : (B.csr A).col = []
      · rw [(C48_conversion _ hA).1 h] at hS
        exact ⟨by cases hS; rfl, h⟩
      · obtain ⟨S, m, h', -⟩ := (C48_conversion _ hA).2 h
        rw [h'] at hS; cases hS
    refine ⟨fun h => by rw [he.2] at h; simp at h, fun _ => ?_⟩
    unfold pardisoSolver
    rw [hS, he.1]; rfl
  · have h := C48_square _ hA hsq hS
    refine ⟨fun hl => ⟨pySolver B S, ?_⟩, fun hl => ?_⟩
    · unfold pardisoSolver
      rw [hS]
      change (do checkA S; return pySolver B S) = _
      rw [checkA, if_pos (h.2 hl)]; rfl
    · unfold pardisoSolver
      rw [hS]
      change (do checkA S; return pySolver B S) = _
      rw [checkA, if_neg fun e => hl (h.1 e)]; rfl

/-- The 2×2 matrix with stored entries `(0,0) ↦ 4`, `(0,1) ↦ 1`, `(1,0) ↦ 1`. -/
def Example.csr2 : PCsr := ⟨2, 2, [0, 2, 3], [0, 1, 0], [4, 1, 1]⟩
theorem Example.csr2_ok : Example.csr2.Ok :=
  ⟨rfl, rfl, by simp [Example.csr2]; decide, rfl, rfl, by simp [Example.csr2]⟩
example : ∃ S, getSparseMatrix Example.csr2 = .ok S ∧ S.rows = S.cols := by
  obtain ⟨S, m, h, -⟩ := (C48_conversion _ Example.csr2_ok).2 (by simp [Example.csr2])
  exact ⟨S, h, (C48_square _ Example.csr2_ok rfl h).2 (by simp [Example.csr2])⟩
/-- A lower triangular example whose last column is not stored becomes 2×1. -/
def Example.csrLow : PCsr := ⟨2, 2, [0, 1, 2], [0, 0], [4, 1]⟩
theorem Example.csrLow_ok : Example.csrLow.Ok :=
  ⟨rfl, rfl, by simp [Example.csrLow]; decide, rfl, rfl, by simp [Example.csrLow]⟩
example : ∃ S, getSparseMatrix Example.csrLow = .ok S ∧ S.rows ≠ S.cols := by
  obtain ⟨S, m, h, -⟩ := (C48_conversion _ Example.csrLow_ok).2 (by simp [Example.csrLow])
  exact ⟨S, h, fun e => by
    have := (C48_square _ Example.csrLow_ok rfl h).1 e
    simp [Example.csrLow] at this⟩

/-- With such slab matrices the pypardiso branch stops. -/
example : pardisoSolver ⟨fun _ => Example.csrLow, fun _ _ x => (.ok (), x), fun _ b => .ok b⟩ ⟨2, fun _ _ => 0⟩ = .error .valueError :=
  (C48_solver _ _ Example.csrLow_ok rfl).2 (by simp [Example.csrLow])
example : ∃ s, pardisoSolver ⟨fun _ => Example.csr2, fun _ _ x => (.ok (), x), fun _ b => .ok b⟩ ⟨2, fun _ _ => 0⟩ = .ok s :=
  (C48_solver _ _ Example.csr2_ok rfl).1 (by simp [Example.csr2])

/-! ## C46 -/

/-- C46: the branch taken is decided by whether pypardiso can be imported, and the direct branch is not
reachable. -/
theorem C46_backend (importable : Bool) :
    (branchOf (solverType importable) = .pypardiso ↔ importable = true) ∧
    (branchOf (solverType importable) = .petscLU ↔ importable = false) ∧
    branchOf (solverType importable) ≠ .direct := by
  cases importable <;> simp [solverType, branchOf]

/-- The solver a script builds for a slab matrix works: it is built, and it returns a result for every
right-hand side. -/
def Works (B : Backend) (importable : Bool) (A : Mat) (f : Vec → Vec) : Prop :=
  if importable then ∃ s, pardisoSolver B A = .ok s ∧ s.Computes A.size fun r => .ok (f r)
  else (B.lu A).Computes A.size fun r => .ok (f r)

theorem marchTotal_ok {l₀ : Vec} {ln : Vec → Vec} {fF fS : Vec → Vec} {b : Vec} (n : ℕ) :
    ∃ u, march C l₀ ln (fun r => .ok (fF r)) (fun r => .ok (fS r)) b n = .ok u := by
  induction n with
  | zero => exact ⟨_, rfl⟩
  | succ n ih =>
    obtain ⟨u, hu⟩ := ih
    rw [march, hu]
    exact ⟨_, rfl⟩

/-- The state in which the iteration runs. -/
structure IterReady (C : Cfg V) (o : Obj V) : Prop where
  mf : MfReady C o
  pre : ∃ fF fS : Vec → Vec, PreReady C o (fun r => .ok (fF r)) fun r => .ok (fS r)

theorem runK_run (hC : C.Ok) (hfw : C.D.jumpsFw = false) {w : World V} (h : IterReady C w.obj) (k : KCall) :
    ∃ w', runK C k w = (.ok (), w') ∧ w'.obj = w.obj ∧ w'.sched = w.sched ∧ w'.clock = w.clock := by
  cases k with
  | mult x y =>
    have hx : x.ref ∉ mfScratch := by cases x <;> simp [InVec.ref, mfScratch]
    obtain ⟨w', e, h1, h2, h3, -⟩ := apply_run hC h.mf hx (show Ref.user y ∉ mfScratch by simp [mfScratch])
    exact ⟨w', e, h1, h2, h3⟩
  | pc b x =>
    obtain ⟨fF, fS, hp⟩ := h.pre
    have hb : b.ref ∉ preScratch := by cases b <;> simp [InVec.ref, preScratch]
    obtain ⟨-, h1, h2, h3, hm⟩ := preImproved_run hC hp hb (show Ref.user x ∉ preScratch by simp [preScratch]) hfw
    refine ⟨(preTimeMarchingImproved C b.ref (.user x) w).2, ?_, h1, h2, h3⟩
    rcases hr : (preTimeMarchingImproved C b.ref (.user x) w).1 with e | u
    · rw [hr] at hm
      obtain ⟨n, -, he, -⟩ := hm
      obtain ⟨u, hu⟩ := marchTotal_ok (C := C) (l₀ := 0) (ln := carry C) (fF := fF) (fS := fS)
        (b := w.heap b.ref) n
      rw [hu] at he; cases he
    · exact Prod.ext hr rfl
  | write k v => exact ⟨_, rfl, rfl, rfl, rfl⟩

theorem iterate_run (hC : C.Ok) (hfw : C.D.jumpsFw = false) {w : World V} (h : IterReady C w.obj)
    (l : List KCall) :
    ∃ w', M.forList l (runK C) w = (.ok (), w') ∧ w'.obj = w.obj ∧ w'.sched = w.sched ∧ w'.clock = w.clock := by
  refine M.forList_inv (fun _ w' => w'.obj = w.obj ∧ w'.sched = w.sched ∧ w'.clock = w.clock) ?_ l w
    ⟨rfl, rfl, rfl⟩
  rintro k _ w₁ ⟨h1, h2, h3⟩
  obtain ⟨w', e, g1, g2, g3⟩ := runK_run hC hfw (w := w₁) (by rw [h1]; exact h) k
  exact ⟨w', e, g1.trans h1, g2.trans h2, g3.trans h3⟩

theorem scriptSetup_run {w : World V} (h : w.Fresh) (hs : w.NoFail) :
    ∃ w', scriptSetup C w = (.ok .rhs, w') ∧ w'.obj = preparedObj C 0 0 ∧ w'.NoFail := by
  have k1 := (hist_op (C := C) (b := false) .setupFE (fun h => by cases h) w (Inv.of_fresh h))
  have h1 := setupFE_fresh (C := C) h hs
  have n1 : (setupFE C w).2.NoFail := NoFail.of_keep hs k1.2
  have k2 := (hist_op (C := C) (b := false) .prepare (fun h => by cases h) _ k1.1)
  have h2 := prepare_setUp h1.2 n1
  have n2 : (prepareGmres C (setupFE C w).2).2.NoFail := NoFail.of_keep n1 k2.2
  refine ⟨(prepareGmres C (setupFE C w).2).2, ?_, h2.2, n2⟩
  unfold scriptSetup
  rw [M.bind_ok (Prod.ext h1.1 rfl), M.bind_ok (Prod.ext h2.1 rfl)]
  unfold getSpacetimeRhs
  rw [M.bind_ok (M.get_run _)]
  rw [h2.2]
  simp [preparedObj]

/-- The object when the iteration starts. -/
noncomputable def solverObj (C : Cfg V) (s₁ s₂ : Solver) : Obj V :=
  { preparedObj C 0 0 with solverSlab := some s₂, solverFirst := some s₁ }

theorem getSlabMatrix_prepared {w : World V} (h : w.obj = preparedObj C 0 0) :
    getSlabMatrix C w = (.ok (some (slabMatOf C true)), w) := by
  unfold getSlabMatrix
  rw [M.bind_ok (M.get_run _), h]
  rw [if_neg (by simp [preparedObj])]
  show (Except.ok w.obj.slabMat, w) = _
  rw [h]
  rfl

theorem needMat_some (A : Mat) (w : World V) : needMat (some A) w = (.ok A, w) := rfl

theorem setSolverSlab_run (s : Solver) (w : World V) :
    setSolverSlab s w = (.ok (), { w with obj := { w.obj with solverSlab := some s } }) := rfl

theorem setSolverFirst_run (s : Solver) (w : World V) :
    setSolverFirst s w = (.ok (), { w with obj := { w.obj with solverFirst := some s } }) := rfl

theorem getFirst_run {w : World V} {m : Option Mat} (h : w.obj.firstMat = m) :
    getSlabMatrixFirst w = (.ok m, w) := by
  subst h; rfl

theorem iterReady (hwp : C.D.wellPosed = false) {s₁ s₂ : Solver} {fF fS : Vec → Vec}
    (h1 : s₁.Computes C.slab.size fun r => .ok (fF r)) (h2 : s₂.Computes C.slab.size fun r => .ok (fS r)) :
    IterReady C (solverObj C s₁ s₂) := by
  refine ⟨⟨rfl, ?_, ?_, fun _ => rfl, fun _ => rfl⟩, fF, fS, ⟨rfl, ⟨s₁, rfl, h1⟩, fun _ => ⟨s₂, rfl, h2⟩⟩, rfl,
    rfl, rfl⟩ <;> simp [solverObj, preparedObj, hwp]

theorem computeSol_run (hC : C.Ok) (hwp : C.D.wellPosed = false) (hfw : C.D.jumpsFw = false)
    {B : Backend} {importable : Bool} {fF fS : Vec → Vec} (h1 : Works B importable (slabMatOf C false) fF)
    (h2 : Works B importable (slabMatOf C true) fS) {K : Krylov} (hK : 0 ≤ K.reason) (sc : Script)
    {w : World V} (h : w.obj = preparedObj C 0 0) (hf : w.NoFail) (b : Ref) :
    ∃ w', computeSol C sc B K (solverType importable) b w = (.ok (.user K.sol), w') ∧
      w'.obj.dofmaps = some (mkDofmaps C) ∧ w'.NoFail := by
  have fin : ∀ {s₁ s₂ : Solver}, (s₁.Computes C.slab.size fun r => .ok (fF r)) →
      (s₂.Computes C.slab.size fun r => .ok (fS r)) → ∀ w₁ : World V, w₁.obj = solverObj C s₁ s₂ → w₁.NoFail →
      ∃ w', gmres C K w₁ = (.ok (.user K.sol), w') ∧ w'.obj.dofmaps = some (mkDofmaps C) ∧ w'.NoFail := by
    intro s₁ s₂ g1 g2 w₁ ho hn
    obtain ⟨w', e, o', s', c'⟩ := iterate_run hC hfw (w := w₁) (by rw [ho]; exact iterReady hwp g1 g2) K.calls
    refine ⟨w', ?_, by rw [o', ho]; rfl, ?_⟩
    · unfold gmres
      rw [M.bind_ok e, if_neg (not_lt.2 hK)]
      rfl
    · intro k hk
      rw [s']
      exact hn k (c' ▸ hk)
  have hfirst : w.obj.firstMat = some (slabMatOf C false) := by rw [h]; simp [preparedObj, hwp]
  cases importable with
  | false =>
    have g1 : (B.lu (slabMatOf C false)).Computes C.slab.size fun r => .ok (fF r) := h1
    have g2 : (B.lu (slabMatOf C true)).Computes C.slab.size fun r => .ok (fS r) := h2
    have hb : branchOf (solverType false) = .petscLU := by simp [solverType, branchOf]
    unfold computeSol
    rw [hb]
    simp only []
    rw [M.bind_ok (getSlabMatrix_prepared h)]
    rw [M.bind_ok (needMat_some _ _), M.bind_ok (setSolverSlab_run _ _), M.bind_ok (getFirst_run (by exact hfirst)),
      M.bind_ok (needMat_some _ _), M.bind_ok (setSolverFirst_run _ _)]
    exact fin g1 g2 _ (by simp only [h]; rfl) hf
  | true =>
    obtain ⟨s₁, e1, g1⟩ := h1
    obtain ⟨s₂, e2, g2⟩ := h2
    have hb : branchOf (solverType true) = .pypardiso := by simp [solverType, branchOf]
    unfold computeSol
    rw [hb]
    simp only []
    rw [M.bind_ok (getSlabMatrix_prepared h)]
    rw [M.bind_ok (needMat_some _ _), e2, M.bind_ok (M.lift_run (.ok s₂) _), M.bind_ok (setSolverSlab_run _ _),
      M.bind_ok (getFirst_run (by exact hfirst)), M.bind_ok (needMat_some _ _), e1, M.bind_ok (M.lift_run (.ok s₁) _),
      M.bind_ok (setSolverFirst_run _ _)]
    obtain ⟨w', e, hd, hn⟩ := fin g1 g2 { w with obj := { w.obj with
      solverSlab := some s₂, solverFirst := some s₁ } } (by simp only [h]; rfl) hf
    rw [M.bind_ok e]
    by_cases hsc : sc = .d1
    · have hx : ext w' = (.ok (), { w' with clock := w'.clock + 1 }) := by
        simp [ext, hn _ le_rfl]
      simp only [hsc, if_true]
      rw [M.bind_ok hx]
      exact ⟨_, rfl, hd, fun k hk => hn k (by simp only at hk; omega)⟩
    · simp only [hsc, if_false]
      exact ⟨w', rfl, hd, hn⟩

/-- C46: with either back end, if the solvers for the two slab matrices work and GMRes converges, the
script runs to the end, and the errors it reports are those of the vector GMRes returned, whatever calls
GMRes made. -/
theorem C46_completes (hC : C.Ok) (hM : C.Meas) (hS : ∀ u, 0 ≤ C.S.mass u u) (hwp : C.D.wellPosed = false)
    (hfw : C.D.jumpsFw = false) {B : Backend} {importable : Bool} {fF fS : Vec → Vec}
    (h1 : Works B importable (slabMatOf C false) fF) (h2 : Works B importable (slabMatOf C true) fS)
    {K : Krylov} (hK : 0 ≤ K.reason) (sc : Script) {w : World V} (h₀ : w.Fresh) (hf : w.NoFail) :
    ∃ w₀ w₁ w₂ r, scriptSetup C w = (.ok .rhs, w₀) ∧
      computeSol C sc B K (solverType importable) .rhs w₀ = (.ok (.user K.sol), w₁) ∧
      runScript C sc B K importable w = (.ok (.user K.sol, some r), w₂) ∧
      Report C (w₁.heap (.user K.sol)) r := by
  obtain ⟨w₀, e0, o0, n0⟩ := scriptSetup_run (C := C) h₀ hf
  obtain ⟨w₁, e1, d1, n1⟩ := computeSol_run hC hwp hfw h1 h2 hK sc o0 n0 .rhs
  have hrun : ∀ w' : World V, w'.obj.dofmaps = some (mkDofmaps C) → w'.NoFail →
      w'.heap (.user K.sol) = w₁.heap (.user K.sol) →
      ∃ w₂ r, measuredErrors C (.user K.sol) w' = (.ok r, w₂) ∧ Report C (w₁.heap (.user K.sol)) r := by
    intro w' hd hn hh
    obtain ⟨r, w₂, e, hr⟩ := (C42_report hM hS hd (.user K.sol)).noFail hn
    exact ⟨w₂, r, e, hh ▸ hr⟩
  suffices hs : ∃ w₂ r, (do
      if sc = Script.d3 then plotParaView C (.user K.sol)
      let e ← measuredErrors C (.user K.sol)
      return ((Ref.user K.sol : Ref), some e)) w₁ = (.ok (.user K.sol, some r), w₂) ∧
      Report C (w₁.heap (.user K.sol)) r by
    obtain ⟨w₂, r, e2, hr⟩ := hs
    refine ⟨w₀, w₁, w₂, r, e0, e1, ?_, hr⟩
    unfold runScript
    rw [M.bind_ok e0]
    unfold solveProblem
    rw [M.bind_ok e1]
    exact e2
  by_cases hsc : sc = .d3
  · have hp : ∃ w', plotParaView C (.user K.sol) w₁ = (.ok (), w') ∧ w'.obj.dofmaps = some (mkDofmaps C) ∧
        w'.NoFail ∧ w'.heap (.user K.sol) = w₁.heap (.user K.sol) := by
      unfold plotParaView
      rw [M.bind_ok (loadFinal_run hM.N_pos d1 _)]
      unfold ext
      rw [if_neg (by simp only []; rw [n1 _ le_rfl]; simp)]
      refine ⟨_, rfl, d1, fun k hk => n1 k (by simp only at hk; omega), ?_⟩
      simp only []
      rw [Function.update_of_ne (by simp)]
    obtain ⟨w', e', d', n', hh⟩ := hp
    obtain ⟨w₂, r, e, hr⟩ := hrun w' d' n' hh
    refine ⟨w₂, r, ?_, hr⟩
    simp only [hsc, if_true]
    rw [M.bind_ok e', M.bind_ok e]
    rfl
  · obtain ⟨w₂, r, e, hr⟩ := hrun w₁ d1 n1 rfl
    refine ⟨w₂, r, ?_, hr⟩
    simp only [hsc, if_false]
    rw [M.bind_ok e]
    rfl

/-- C46: if GMRes reports divergence, the script stops with the PETSc error, whatever was computed. -/
theorem C46_diverged (hC : C.Ok) (hfw : C.D.jumpsFw = false) {K : Krylov} (hK : K.reason < 0) {w : World V}
    (h : IterReady C w.obj) : (gmres C K w).1 = .error .petscError := by
  obtain ⟨w', e, -⟩ := iterate_run hC hfw h K.calls
  unfold gmres
  rw [M.bind_ok e, if_pos hK]
  rfl

/-! ## C47 -/

/-- What the documentation of PETSc says about `solve(b, x)` with LU: if it returns, `x` solves `A x = b`. -/
def Backend.Exact (B : Backend) : Prop :=
  ∀ A b x, (B.lu A b x).1 = .ok () → ∀ d < A.size, A.mult (B.lu A b x).2 d = b d

/-- C47 as claimed: whenever the direct branch returns a vector, that vector solves `A u = b`, where `A` is
the space-time matrix and `b` the right-hand side the branch was given. -/
def C47_statement (V : Type) [AddCommGroup V] [Module ℝ V] : Prop :=
  ∀ (C : Cfg V) (B : Backend), B.Exact → ∀ (w w' : World V) (b u : Ref), b ≠ .user directVec →
    w.obj.dofmaps = some (mkDofmaps C) → w.obj.stMat = none → w.NoFail →
    directBranch C B b w = (.ok u, w') → ∀ d < (stMatOf C false).size, (stMatOf C false).mult (w'.heap u) d = w.heap b d

theorem getSpacetimeMatrix_run {w : World V} (hd : w.obj.dofmaps = some (mkDofmaps C)) (hs : w.obj.stMat = none)
    (hf : w.NoFail) (p : Bool) :
    getSpacetimeMatrix C p w = (.ok (stMatOf C p), { w with
      obj := { w.obj with stBfi := some (C.D.stForm p), stMat := some (stMatOf C p) }
      clock := w.clock + 1 }) := by
  have hx : ext w = (.ok (), { w with clock := w.clock + 1 }) := by
    unfold ext; rw [hf _ le_rfl]; rfl
  have h1 : setupSpacetimeMatrix C p w = (.ok (stMatOf C p, C.D.stForm p), { w with clock := w.clock + 1 }) := by
    unfold setupSpacetimeMatrix
    rw [M.bind_ok (M.attr_some (f := fun w : World V => w.obj.dofmaps) hd), M.bind_ok hx]
    rfl
  unfold getSpacetimeMatrix
  rw [M.bind_ok (M.get_run w)]
  simp only [hs]
  rw [M.bind_ok h1]
  rfl

/-- What the direct branch does: the solution of `A x = 0` overwrites the right-hand side, and the zero
vector is returned. -/
theorem directBranch_run {w : World V} (hd : w.obj.dofmaps = some (mkDofmaps C)) (hs : w.obj.stMat = none)
    (hf : w.NoFail) (B : Backend) {b : Ref} (hb : b ≠ .user directVec) :
    ∃ w', directBranch C B b w = ((B.lu (stMatOf C false) 0 (w.heap b)).1.map fun _ => .user directVec, w') ∧
      w'.heap (.user directVec) = 0 ∧ w'.heap b = (B.lu (stMatOf C false) 0 (w.heap b)).2 := by
  unfold directBranch
  rw [M.bind_ok (getSpacetimeMatrix_run hd hs hf false)]
  have hx : ∀ o : Obj V, ext { w with obj := o, clock := w.clock + 1 }
      = (.ok (), { w with obj := o, clock := w.clock + 1 + 1 }) := by
    intro o; unfold ext; simp only []; rw [hf _ (by omega)]; rfl
  rw [M.bind_ok (hx _)]
  rw [M.bind_ok (setVec_run _ _ _)]
  generalize hw₁ : World.put (V := V) _ _ _ = w₁
  have g0 : w₁.heap (.user directVec) = 0 := by rw [← hw₁]; simp [World.put]
  have g1 : w₁.heap b = w.heap b := by rw [← hw₁]; simp [World.put, Function.update_of_ne hb]
  rw [M.bind_ok (show getVec (V := V) (.user directVec) w₁ = (.ok 0, w₁) by rw [← g0]; rfl),
    M.bind_ok (show getVec (V := V) b w₁ = (.ok (w.heap b), w₁) by rw [← g1]; rfl)]
  rcases hl : B.lu (stMatOf C false) 0 (w.heap b) with ⟨res, x⟩
  simp only []
  rw [M.bind_ok (setVec_run _ _ _), M.bind_run, M.lift_run]
  cases res with
  | error e => refine ⟨_, rfl, ?_, ?_⟩ <;> simp [World.put, Function.update_of_ne hb.symm, g0]
  | ok a => refine ⟨_, rfl, ?_, ?_⟩ <;> simp [World.put, Function.update_of_ne hb.symm, g0]

/-- C47, what does hold: the vector returned is zero, so it solves `A u = b` exactly when `b` is zero; the
right-hand side is replaced by a solution of `A x = 0`.  Missing: a solution for `b ≠ 0`. -/
theorem C47_zero_partial {B : Backend} (hB : B.Exact) {w w' : World V} {b u : Ref} (hb : b ≠ .user directVec)
    (hd : w.obj.dofmaps = some (mkDofmaps C)) (hs : w.obj.stMat = none) (hf : w.NoFail)
    (h : directBranch C B b w = (.ok u, w')) :
    w'.heap u = 0 ∧
    ((∀ d < (stMatOf C false).size, (stMatOf C false).mult (w'.heap u) d = w.heap b d) ↔
      ∀ d < (stMatOf C false).size, w.heap b d = 0) ∧
    (∀ d < (stMatOf C false).size, (stMatOf C false).mult (w'.heap b) d = 0) := by
  obtain ⟨w₁, e, h0, h1⟩ := directBranch_run hd hs hf B hb
  rw [e] at h
  rcases hl : (B.lu (stMatOf C false) 0 (w.heap b)).1 with er | a
  · rw [hl] at h
    have := congrArg Prod.fst h
    cases this
  · rw [hl] at h
    have hu : Ref.user directVec = u := Except.ok.inj (congrArg Prod.fst h)
    have hw : w₁ = w' := congrArg Prod.snd h
    subst hu hw
    refine ⟨h0, ?_, fun d hdl => ?_⟩
    · rw [h0]
      have : ∀ d, (stMatOf C false).mult 0 d = 0 := by simp [Mat.mult]
      simp only [this]
      exact forall_congr' fun d => forall_congr' fun _ => eq_comm
    · rw [h1]
      exact hB _ _ _ hl d hdl

namespace Example
open Polynomial

/-- An LU solver that answers systems with zero right-hand side and fails otherwise (singular pivot); `csr`
and `pardiso` play no part. -/
noncomputable def luZero : Backend where
  csr _ := csr2
  lu _ b x := open Classical in if b = 0 then (.ok (), 0) else (.error .petscError, x)
  pardiso _ _ := .error .runtimeError

theorem luZero_exact : luZero.Exact := by
  intro A b x h d _
  by_cases hb : b = 0
  · simp [luZero, hb, Mat.mult]
  · simp [luZero, hb] at h

/-- The configuration after set-up with a given right-hand side in user vector 1. -/
noncomputable def directWorld (b : Vec) : World ℝ[X] :=
  ⟨setUpObj (cfg false false) 0 0, Function.update (fun _ => 0) (.user 1) b, fun _ => false, 0⟩

theorem direct_ok (b : Vec) : ∃ w', directBranch (cfg false false) luZero (.user 1) (directWorld b)
    = (.ok (.user directVec), w') := by
  obtain ⟨w', e, -⟩ := directBranch_run (C := cfg false false) (w := directWorld b) rfl rfl (fun _ _ => rfl) luZero
    (b := .user 1) (by simp [directVec])
  refine ⟨w', e.trans ?_⟩
  simp [luZero, Except.map]

example (b : Vec) := C47_zero_partial (C := cfg false false) luZero_exact (b := .user 1) (by simp [directVec]) rfl rfl
  (fun _ _ => rfl) (direct_ok b).choose_spec

/-- C47 is false: with right-hand side `e₀` the direct branch returns the zero vector. -/
theorem C47_violated : ¬ C47_statement ℝ[X] := by
  intro h
  obtain ⟨w', e⟩ := direct_ok (unitVec 0)
  have hs : 0 < (stMatOf (cfg false false) false).size := by
    show 0 < (cfg false false).full.size
    exact lt_of_le_of_lt (Nat.zero_le _) ((cfg_ok false false).full.lt 1 0 0 (by decide) (by decide))
  have hw := h (cfg false false) luZero luZero_exact (directWorld (unitVec 0)) w' (.user 1) _ (by simp [directVec])
    rfl rfl (fun _ _ => rfl) e
  have := ((C47_zero_partial (C := cfg false false) luZero_exact (b := .user 1) (by simp [directVec]) rfl rfl
    (fun _ _ => rfl) e).2.1).1 hw 0 hs
  simp [directWorld, unitVec] at this

/-- C46 with the concrete configuration, GMRes making some calls. -/
noncomputable def someBackend : Backend where
  csr _ := csr2
  lu _ := solverOf scaleSol
  pardiso _ b := .ok b

def someKrylov : Krylov := ⟨[.write 1 (fun _ => 1), .mult (.user 1) 2, .pc .rhs 3, .mult (.user 3) 4], 2, 3⟩

theorem someBackend_lu (A : Mat) : Works someBackend false A fun r => (2 : ℝ) • r :=
  solverOf_computes scaleSol A.size

theorem someBackend_pardiso (A : Mat) : Works someBackend true A fun r => r := by
  refine ⟨pySolver someBackend ⟨2, 2, [0, 2, 3], [0, 1, 0], [4, 1, 1]⟩, ?_, fun b x => ⟨rfl, fun _ _ => rfl⟩⟩
  simp [pardisoSolver, someBackend, getSparseMatrix, csrMatrix, csr2, checkA]
  rfl

theorem cfgM_ok : cfgM.Ok :=
  have h := cfg_ok false false
  { h with }

example (sc : Script) (heap : Ref → Vec) := C46_completes (C := cfgM) cfgM_ok cfgM_meas polySpace_psd.mass
  rfl rfl (someBackend_lu _) (someBackend_lu _) (K := someKrylov) (by decide) sc (freshWorld_fresh heap)
  (freshWorld_noFail heap)
example (sc : Script) (heap : Ref → Vec) := C46_completes (C := cfgM) cfgM_ok cfgM_meas polySpace_psd.mass
  rfl rfl (someBackend_pardiso _) (someBackend_pardiso _) (K := someKrylov) (by decide) sc (freshWorld_fresh heap)
  (freshWorld_noFail heap)

end Example

end Dxss
