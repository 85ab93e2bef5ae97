import Verif.Lemmas.MatrixFree

/-! # The time-marching preconditioner -/

namespace Dxss
open Finset
set_option linter.unusedSectionVars false
variable {V : Type} [AddCommGroup V] [Module ℝ V]

/-- The solver computes `f`: it raises exactly when `f` does, and on success the entries of the
solution vector are those of `f b`, whatever the vector contained before. -/
def Solver.Computes (s : Solver) (size : ℕ) (f : Vec → Py Vec) : Prop :=
  ∀ b x0, match f b with
    | .ok u => (s b x0).1 = .ok () ∧ ∀ e < size, (s b x0).2 e = u e
    | .error e => (s b x0).1 = .error e

/-- The slab solution operators: `fF` on the first slab, `fS` on the others. -/
def slabSol (fF fS : Vec → Py Vec) (n : ℕ) : Vec → Py Vec := if n = 0 then fF else fS

/-- Block `n` of a vector of the full space. -/
def pullS (C : Cfg V) (n : ℕ) (x : Vec) : Vec := pull C.fe.m C.full C.slab (slabIx C.D n) x
/-- The vector of the full space with block `n` given and zero elsewhere. -/
def pushS (C : Cfg V) (n : ℕ) (v : Vec) : Vec := push C.fe.m C.full C.slab (slabIx C.D n) v

/-- Load on the next slab produced by the slab solution `u`. -/
noncomputable def carry (C : Cfg V) (u : Vec) : Vec :=
  push C.fe.m C.slab C.bnd botIx ((bndMatOf C).mult (pull C.fe.m C.slab C.bnd (topIx C.D) u))

/-- Slab-by-slab solution with right-hand side `b`; `l₀` is the load on the first slab and `ln u` the
load on the next slab produced by the slab solution `u`. -/
def march (C : Cfg V) (l₀ : Vec) (ln : Vec → Vec) (fF fS : Vec → Py Vec) (b : Vec) : ℕ → Py Vec
  | 0 => fF (l₀ + pullS C 0 b)
  | n + 1 => match march C l₀ ln fF fS b n with
    | .ok u => fS (ln u + pullS C (n + 1) b)
    | .error e => .error e

/-- Dof maps are built and solvers are set. -/
structure SolReady (C : Cfg V) (o : Obj V) (fF fS : Vec → Py Vec) : Prop where
  dofmaps : o.dofmaps = some (mkDofmaps C)
  first : ∃ s, o.solverFirst = some s ∧ s.Computes C.slab.size fF
  later : 1 < C.D.N → ∃ s, o.solverSlab = some s ∧ s.Computes C.slab.size fS

/-- The set-up state in which the improved preconditioner can run. -/
structure PreReady (C : Cfg V) (o : Obj V) (fF fS : Vec → Py Vec) : Prop
    extends SolReady C o fF fS where
  bRhsPre : o.bRhsPre = some ()
  bndVecs : o.bndVecs = some ()
  bndMat : o.bndMat = some (bndMatOf C)

variable {C : Cfg V}

theorem pre_lookup (C : Cfg V) {j : Fin 4} {l : ℕ} (h : l < C.D.timeOrder j + 1) :
    pyIdx ((mkDofmaps C).pre j) (l : ℤ) = .ok (C.slab.collapse j l) := pyIdx_map_range _ _ h

theorem preGather_run (hC : C.Ok) {w : World V} (hd : w.obj.dofmaps = some (mkDofmaps C)) {b dst : Ref}
    (h1 : b ≠ dst) {n : ℕ} (hn : n < C.D.N) :
    preGather C b dst (ctr C.D.q C.D.qstar n) w
      = (.ok (), w.put dst (w.heap dst + pullS C n (w.heap b))) := by
  unfold preGather
  rw [blockLoop_eq, ← hC.slabN]
  refine loop_gatherAdd (emb_slab hC hn) w h1 _ fun p hp v => ?_
  have hp := mem_blockList.1 hp
  rw [hC.slabN, slabSizes_eq] at hp
  rw [M.bind_ok (M.attr_some (a := mkDofmaps C) (by exact hd))]
  rw [M.bind_ok (a := C.slab.collapse p.1 p.2)
    (by rw [M.lift_run]; exact congrArg (·, _) (pre_lookup C hp))]
  rw [shift_eq, M.bind_ok (a := C.full.collapse p.1 (slabIx C.D n p.1 p.2))
    (by rw [M.lift_run]; exact congrArg (·, _) (full_lookup C.D C.full (slabIx_lt hn hp)))]

/-- Block `n` of `x` equals the slab vector `u`. -/
def BlockEq (C : Cfg V) (n : ℕ) (x u : Vec) : Prop :=
  ∀ c l s, l < C.slab.nsub c → s < C.fe.m c →
    x (C.full.dof c (slabIx C.D n c l) s) = u (C.slab.dof c l s)

theorem preWrite_run (hC : C.Ok) {w : World V} (hd : w.obj.dofmaps = some (mkDofmaps C)) {x : Ref}
    (h1 : x ≠ .uhPre) {n : ℕ} (hn : n < C.D.N) :
    ∃ v, preWrite C x (ctr C.D.q C.D.qstar n) w = (.ok (), w.put x v) ∧
      BlockEq C n v (w.heap .uhPre) ∧
      ∀ d, (∀ c l s, l < C.slab.nsub c → s < C.fe.m c → C.full.dof c (slabIx C.D n c l) s ≠ d) →
        v d = w.heap x d := by
  unfold preWrite
  rw [blockLoop_eq, ← hC.slabN]
  refine loop_scatter (emb_slab hC hn) w h1.symm _ fun p hp v => ?_
  have hp := mem_blockList.1 hp
  rw [hC.slabN, slabSizes_eq] at hp
  rw [M.bind_ok (M.attr_some (a := mkDofmaps C) (by exact hd))]
  rw [M.bind_ok (a := C.slab.collapse p.1 p.2)
    (by rw [M.lift_run]; exact congrArg (·, _) (pre_lookup C hp))]
  rw [shift_eq, M.bind_ok (a := C.full.collapse p.1 (slabIx C.D n p.1 p.2))
    (by rw [M.lift_run]; exact congrArg (·, _) (full_lookup C.D C.full (slabIx_lt hn hp)))]

theorem runSolver_run {sel : Obj V → Option Solver} {w : World V} {s : Solver} (h : sel w.obj = some s)
    (r : Ref) : runSolver sel r w
      = ((s (w.heap r) (w.heap .uhPre)).1, w.put .uhPre (s (w.heap r) (w.heap .uhPre)).2) := by
  unfold runSolver
  rw [M.bind_ok (M.attr_some (f := fun w : World V => sel w.obj) (a := s) h)]
  rfl

theorem preSolve_run {w : World V} {fF fS : Vec → Py Vec} (hw : SolReady C w.obj fF fS)
    (r : Ref) {n : ℕ} (hn : n < C.D.N) :
    ∃ v, preSolve r n w = ((slabSol fF fS n (w.heap r)).map fun _ => (), w.put .uhPre v) ∧
      ∀ u, slabSol fF fS n (w.heap r) = .ok u → ∀ e < C.slab.size, v e = u e := by
  have key : ∀ (sel : Obj V → Option Solver) (s : Solver) (f : Vec → Py Vec), sel w.obj = some s →
      s.Computes C.slab.size f →
      ∃ v, runSolver sel r w = ((f (w.heap r)).map fun _ => (), w.put .uhPre v) ∧
        ∀ u, f (w.heap r) = .ok u → ∀ e < C.slab.size, v e = u e := by
    intro sel s f h1 h2
    have h3 := h2 (w.heap r) (w.heap .uhPre)
    refine ⟨(s (w.heap r) (w.heap .uhPre)).2, ?_, fun u hu => ?_⟩
    · rw [runSolver_run h1]
      rcases hf : f (w.heap r) with e | u
      · rw [hf] at h3; rw [h3]; rfl
      · rw [hf] at h3; rw [h3.1]; rfl
    · rw [hu] at h3; exact h3.2
  unfold preSolve slabSol
  by_cases h0 : n = 0
  · obtain ⟨s, h1, h2⟩ := hw.first
    simp only [h0, if_true]
    exact key _ s fF h1 h2
  · obtain ⟨s, h1, h2⟩ := hw.later (by omega)
    simp only [h0, if_false]
    exact key _ s fS h1 h2

/-! ### the carry -/

theorem bnd_loop {σ : Type} (body : Fin 4 → M σ Unit) :
    M.forList (blockList bndSizes) (fun p => body p.1) = (do body 0; body 1) := by
  change M.forList [((0 : Fin 4), 0), (1, 0)] (fun p => body p.1) = _
  rw [M.forList_cons, M.forList_cons, M.forList_nil]
  have : (do body 1; M.ret ()) = body 1 := bind_pure_unit
  rw [this]

theorem preCarry_run (hC : C.Ok) {w : World V} (hd : w.obj.dofmaps = some (mkDofmaps C))
    (hv : w.obj.bndVecs = some ()) (hm : w.obj.bndMat = some (bndMatOf C)) :
    ∃ v₁ v₂, preCarry C w = (.ok (), ((w.put .bndIn v₁).put .bndOut v₂).put .bRhsPre
      (carry C (w.heap .uhPre))) := by
  have e : preCarry C = (do
      let dm ← M.attr (fun w : World V => w.obj.dofmaps)
      let _ ← M.attr (fun w : World V => w.obj.bndVecs)
      setVec .bndIn 0
      M.forList (blockList bndSizes) fun p => do
        let t ← M.lift (pyIdx (dm.pre p.1) C.D.q)
        addBlock .bndIn (dm.bnd p.1) .uhPre t
      matMult (fun w => w.obj.bndMat) .bndIn .bndOut
      setVec .bRhsPre 0
      M.forList (blockList bndSizes) fun p => do
        let t ← M.lift (pyIdx (dm.pre p.1) 0)
        addBlock .bRhsPre t .bndOut (dm.bnd p.1)) := by
    unfold preCarry
    congr 1; funext dm
    congr 1; funext _
    congr 1; funext _
    rw [bnd_loop (fun j => do
      let t ← M.lift (pyIdx (dm.pre j) C.D.q)
      addBlock .bndIn (dm.bnd j) .uhPre t), bnd_loop (fun j => do
      let t ← M.lift (pyIdx (dm.pre j) 0)
      addBlock .bRhsPre t .bndOut (dm.bnd j))]
    simp only [bind_assoc]
  rw [e, M.bind_ok (M.attr_some (a := mkDofmaps C) (by exact hd)), M.bind_ok (M.attr_some (a := ()) (by exact hv)),
    M.bind_ok (setVec_run _ _ _)]
  have l1 : M.forList (blockList bndSizes) (fun p => do
        let t ← M.lift (pyIdx ((mkDofmaps C).pre p.1) C.D.q)
        addBlock .bndIn ((mkDofmaps C).bnd p.1) .uhPre t) (w.put .bndIn 0)
      = (.ok (), (w.put .bndIn 0).put .bndIn ((w.put .bndIn 0).heap .bndIn
          + pull C.fe.m C.slab C.bnd (topIx C.D) ((w.put .bndIn 0).heap .uhPre))) := by
    rw [← hC.bndN]
    refine loop_gatherAdd (emb_top hC) (w.put .bndIn 0) (by decide) _ fun p hp v => ?_
    have hp := mem_blockList.1 hp
    rw [hC.bndN] at hp
    obtain ⟨hc, h0⟩ := bndSizes_lt hp
    rw [M.bind_ok (a := C.slab.collapse p.1 C.D.q)
      (by rw [M.lift_run]; exact congrArg (·, _) (pre_lookup C (by rw [timeOrder_primal _ hc]; omega)))]
    rw [h0, show (mkDofmaps C).bnd p.1 = C.bnd.collapse p.1 0 from if_pos hc]; rfl
  rw [M.bind_ok l1, M.bind_ok (matMult_run (M' := bndMatOf C) (by exact hm) _ _),
    M.bind_ok (setVec_run _ _ _)]
  simp only [put_put, put_same, put_ne w (show Ref.uhPre ≠ Ref.bndIn by decide), zero_add]
  set w2 := (((w.put .bndIn (pull C.fe.m C.slab C.bnd (topIx C.D) (w.heap .uhPre))).put .bndOut
    ((bndMatOf C).mult (pull C.fe.m C.slab C.bnd (topIx C.D) (w.heap .uhPre)))).put .bRhsPre 0) with hw2
  have l2 : M.forList (blockList bndSizes) (fun p => do
        let t ← M.lift (pyIdx ((mkDofmaps C).pre p.1) 0)
        addBlock .bRhsPre t .bndOut ((mkDofmaps C).bnd p.1)) w2
      = (.ok (), w2.put .bRhsPre (w2.heap .bRhsPre
          + push C.fe.m C.slab C.bnd botIx (w2.heap .bndOut))) := by
    rw [← hC.bndN]
    refine loop_scatterAdd (emb_bot hC) w2 (by decide) _ fun p hp v => ?_
    have hp := mem_blockList.1 hp
    rw [hC.bndN] at hp
    obtain ⟨hc, h0⟩ := bndSizes_lt hp
    rw [M.bind_ok (a := C.slab.collapse p.1 0)
      (by rw [M.lift_run]; exact congrArg (·, _) (pre_lookup C (l := 0) (by omega)))]
    rw [h0, show (mkDofmaps C).bnd p.1 = C.bnd.collapse p.1 0 from if_pos hc]; rfl
  rw [l2]
  refine ⟨pull C.fe.m C.slab C.bnd (topIx C.D) (w.heap .uhPre),
    (bndMatOf C).mult (pull C.fe.m C.slab C.bnd (topIx C.D) (w.heap .uhPre)), ?_⟩
  rw [hw2]
  simp only [put_put, put_same, zero_add]
  rw [put_ne _ (show Ref.bndOut ≠ Ref.bRhsPre by decide), put_same]
  rfl

theorem carry_congr (hC : C.Ok) {u v : Vec} (h : ∀ e < C.slab.size, u e = v e) :
    carry C u = carry C v := by
  unfold carry; rw [pull_congr (emb_top hC) h]

/-! ### one slab -/

/-- Scratch vectors of the improved time marching. -/
def preScratch : Set Ref := {.bRhsPre, .uhPre, .bndIn, .bndOut}

theorem preBody_run (hC : C.Ok) {w : World V} {fF fS : Vec → Py Vec} (hw : PreReady C w.obj fF fS)
    {b x : Ref} (hb : b ∉ preScratch) (hx : x ∉ preScratch) {n : ℕ} (hn : n < C.D.N) :
    ∃ w', (∀ r, r ∉ preScratch → r ≠ x → w'.heap r = w.heap r) ∧ w'.obj = w.obj ∧
      w'.sched = w.sched ∧ w'.clock = w.clock ∧
      match slabSol fF fS n (w.heap .bRhsPre + pullS C n (w.heap b)) with
      | .ok u => preBody C b x (ctr C.D.q C.D.qstar n) n w = (.ok (), w') ∧
          w'.heap .bRhsPre = carry C u ∧ BlockEq C n (w'.heap x) u ∧
          ∀ d, (∀ c l s, l < C.slab.nsub c → s < C.fe.m c → C.full.dof c (slabIx C.D n c l) s ≠ d) →
            w'.heap x d = w.heap x d
      | .error e => preBody C b x (ctr C.D.q C.D.qstar n) n w = (.error e, w') ∧
          w'.heap x = w.heap x := by
  simp only [preScratch, Set.mem_insert_iff, Set.mem_singleton_iff, not_or] at hb hx
  obtain ⟨hb1, hb2, hb3, hb4⟩ := hb
  obtain ⟨hx1, hx2, hx3, hx4⟩ := hx
  set R := w.heap .bRhsPre + pullS C n (w.heap b) with hR
  have e1 := preGather_run hC (w := w) hw.dofmaps hb1 hn
  rw [← hR] at e1
  obtain ⟨v, e2, e2'⟩ := preSolve_run (w := w.put .bRhsPre R) (by exact hw.toSolReady) .bRhsPre hn
  rw [put_same] at e2 e2'
  unfold preBody
  rw [M.bind_ok e1]
  rcases hs : slabSol fF fS n R with e | u
  · rw [hs] at e2
    refine ⟨(w.put .bRhsPre R).put .uhPre v, ?_, rfl, rfl, rfl, ?_, ?_⟩
    · intro r hr _
      simp only [preScratch, Set.mem_insert_iff, Set.mem_singleton_iff, not_or] at hr
      rw [put_ne _ hr.2.1, put_ne _ hr.1]
    · exact M.bind_error e2
    · rw [put_ne _ hx2, put_ne _ hx1]
  · rw [hs] at e2
    obtain ⟨v1, v2, e3⟩ := preCarry_run hC (w := (w.put .bRhsPre R).put .uhPre v) (by exact hw.dofmaps)
      (by exact hw.bndVecs) (by exact hw.bndMat)
    rw [put_same] at e3
    rw [carry_congr hC (e2' u hs)] at e3
    set w3 := (((((w.put .bRhsPre R).put .uhPre v).put .bndIn v1).put .bndOut v2).put .bRhsPre
      (carry C u)) with hw3
    obtain ⟨vx, e4, e4', e4''⟩ := preWrite_run hC (w := w3) (by exact hw.dofmaps) hx2 hn
    have hu : w3.heap .uhPre = v := by
      rw [hw3, put_ne _ (by decide), put_ne _ (by decide), put_ne _ (by decide), put_same]
    refine ⟨w3.put x vx, ?_, rfl, rfl, rfl, ?_, ?_, ?_, ?_⟩
    · intro r hr hrx
      simp only [preScratch, Set.mem_insert_iff, Set.mem_singleton_iff, not_or] at hr
      rw [put_ne _ hrx, hw3, put_ne _ hr.1, put_ne _ hr.2.2.2, put_ne _ hr.2.2.1, put_ne _ hr.2.1,
        put_ne _ hr.1]
    · rw [M.bind_ok e2, M.bind_ok e3, e4]
    · rw [put_ne _ (Ne.symm hx1), hw3, put_same]
    · intro c l s hl hs'
      rw [put_same, e4' c l s hl hs', hu, e2' u hs _ (hC.slab.lt c l s hl hs')]
    · intro d hd'
      rw [put_same, e4'' d hd', hw3, put_ne _ hx1, put_ne _ hx4, put_ne _ hx3, put_ne _ hx2,
        put_ne _ hx1]

/-- Degrees of freedom outside block `n`. -/
def Off (C : Cfg V) (n d : ℕ) : Prop :=
  ∀ c l s, l < C.slab.nsub c → s < C.fe.m c → C.full.dof c (slabIx C.D n c l) s ≠ d

theorem off_of_ne (hC : C.Ok) {k n : ℕ} (hk : k < C.D.N) (hn : n < C.D.N) (h : k ≠ n) {c : Fin 4}
    {l s : ℕ} (hl : l < C.slab.nsub c) (hs : s < C.fe.m c) :
    Off C n (C.full.dof c (slabIx C.D k c l) s) := by
  intro c' l' s' hl' hs' he
  have h1 := (emb_slab hC hn).range c' l' hl'
  have h2 := (emb_slab hC hk).range c l hl
  obtain ⟨rfl, h3, rfl⟩ := hC.full.inj _ _ _ _ _ _ h1 hs' h2 hs he
  rw [hC.slabN, slabSizes_eq] at hl hl'
  unfold slabIx at h3
  rcases lt_or_gt_of_ne h with h | h
  · nlinarith [Nat.mul_le_mul_right (C.D.timeOrder c' + 1) h]
  · nlinarith [Nat.mul_le_mul_right (C.D.timeOrder c' + 1) h]

theorem pullS_eq_of {n : ℕ} {x y : Vec}
    (h : ∀ c l s, l < C.slab.nsub c → s < C.fe.m c →
      x (C.full.dof c (slabIx C.D n c l) s) = y (C.full.dof c (slabIx C.D n c l) s)) :
    pullS C n x = pullS C n y := by
  funext e
  unfold pullS pull
  exact bsum_congr fun c l s hl hs => by rw [h c l s hl hs]

/-- What a run of time marching from world `w` ends with: success with all blocks of `x` written, or
the error of the first failing slab with exactly the earlier blocks written. -/
def MarchOutcome (C : Cfg V) (scr : Set Ref) (x : Ref) (m : ℕ → Py Vec) (w : World V)
    (res : Py Unit × World V) : Prop :=
  (∀ r, r ∉ scr → r ≠ x → res.2.heap r = w.heap r) ∧ res.2.obj = w.obj ∧
  res.2.sched = w.sched ∧ res.2.clock = w.clock ∧
  match res.1 with
  | .ok () => (∀ n < C.D.N, ∃ u, m n = .ok u ∧ BlockEq C n (res.2.heap x) u) ∧
      ∀ d, (∀ n < C.D.N, Off C n d) → res.2.heap x d = w.heap x d
  | .error e => ∃ n < C.D.N, m n = .error e ∧
      (∀ k < n, ∃ u, m k = .ok u ∧ BlockEq C k (res.2.heap x) u) ∧
      ∀ d, (∀ k < n, Off C k d) → res.2.heap x d = w.heap x d

/-- Generic slab loop.  `ldOf n w` is the load the body of slab `n` finds in world `w`. `b` and `x`
may be the same vector. -/
theorem march_loop (hC : C.Ok) {fF fS : Vec → Py Vec} {scr : Set Ref} {b x : Ref}
    (hb : b ∉ scr) {l₀ : Vec} {ln : Vec → Vec} {ldOf : ℕ → World V → Vec}
    {body : Counters → ℕ → WM V Unit} {w w₀ : World V}
    (hstep : ∀ n w₁, n < C.D.N → w₁.obj = w.obj → ∃ w', (∀ r, r ∉ scr → r ≠ x → w'.heap r = w₁.heap r) ∧
      w'.obj = w₁.obj ∧ w'.sched = w₁.sched ∧ w'.clock = w₁.clock ∧
      match slabSol fF fS n (ldOf n w₁ + pullS C n (w₁.heap b)) with
      | .ok u => body (ctr C.D.q C.D.qstar n) n w₁ = (.ok (), w') ∧
          ldOf (n + 1) w' = ln u ∧ BlockEq C n (w'.heap x) u ∧
          ∀ d, Off C n d → w'.heap x d = w₁.heap x d
      | .error e => body (ctr C.D.q C.D.qstar n) n w₁ = (.error e, w') ∧
          w'.heap x = w₁.heap x)
    (h₀ : ldOf 0 w₀ = l₀) (hx₀ : w₀.heap x = w.heap x) (hr₀ : ∀ r, r ∉ scr → w₀.heap r = w.heap r)
    (ho : w₀.obj = w.obj) (hs : w₀.sched = w.sched) (hc : w₀.clock = w.clock) :
    MarchOutcome C scr x (march C l₀ ln fF fS (w.heap b)) w
      (slabForM C.D.q C.D.qstar C.D.N body w₀) := by
  set m := march C l₀ ln fF fS (w.heap b) with hm
  let Inv : World V → Prop := fun w' => (∀ r, r ∉ scr → r ≠ x → w'.heap r = w.heap r) ∧
    w'.obj = w.obj ∧ w'.sched = w.sched ∧ w'.clock = w.clock
  let Done : ℕ → World V → Prop := fun n w' =>
    (∀ k < n, ∃ u, m k = .ok u ∧ BlockEq C k (w'.heap x) u) ∧
      ∀ d, (∀ k < n, Off C k d) → w'.heap x d = w.heap x d
  have := slabForM_rule (q := C.D.q) (qstar := C.D.qstar) (N := C.D.N) (body := body)
    (fun n w' => Inv w' ∧ Done n w' ∧ (n = 0 → ldOf 0 w' = l₀) ∧
      ∀ k u, n = k + 1 → m k = .ok u → ldOf n w' = ln u)
    (fun e w' => Inv w' ∧ ∃ n < C.D.N, m n = .error e ∧ Done n w') ?_ w₀ ?_
  · rcases hr : slabForM C.D.q C.D.qstar C.D.N body w₀ with ⟨e | u, w'⟩
    · rw [hr] at this
      obtain ⟨⟨i1, i2, i3, i4⟩, n, hn, h1, h2, h3⟩ := this
      exact ⟨i1, i2, i3, i4, n, hn, h1, h2, h3⟩
    · rw [hr] at this
      obtain ⟨⟨i1, i2, i3, i4⟩, ⟨h2, h3⟩, _⟩ := this
      exact ⟨i1, i2, i3, i4, h2, h3⟩
  · rintro n w₁ hn ⟨⟨i1, i2, i3, i4⟩, ⟨d1, d2⟩, c0, c1⟩
    have hbn : pullS C n (w₁.heap b) = pullS C n (w.heap b) := by
      by_cases hbx : b = x
      · subst hbx
        exact pullS_eq_of fun c l s hl hs =>
          d2 _ fun k hk => off_of_ne hC hn (by omega) (by omega) hl hs
      · rw [i1 b hb hbx]
    have hmn : m n = slabSol fF fS n (ldOf n w₁ + pullS C n (w₁.heap b)) := by
      rw [hbn]
      cases n with
      | zero => rw [c0 rfl]; rfl
      | succ k =>
        obtain ⟨u, hu, _⟩ := d1 k (by omega)
        rw [c1 k u rfl hu, hm]
        simp only [march]
        rw [← hm, hu]
        simp [slabSol]
    obtain ⟨w₂, j1, j2, j3, j4, j5⟩ := hstep n w₁ hn i2
    rw [← hmn] at j5
    have hI : Inv w₂ := ⟨fun r hr hrx => by rw [j1 r hr hrx, i1 r hr hrx], by rw [j2, i2],
      by rw [j3, i3], by rw [j4, i4]⟩
    rcases hu : m n with e | u
    · rw [hu] at j5
      rw [j5.1]
      exact ⟨hI, n, hn, hu, fun k hk => by rw [j5.2]; exact d1 k hk,
        fun d hd => by rw [j5.2]; exact d2 d hd⟩
    · rw [hu] at j5
      obtain ⟨e1, e2, e3, e4⟩ := j5
      rw [e1]
      refine ⟨hI, ⟨fun k hk => ?_, fun d hd => ?_⟩, fun h => by omega, fun k v hk hv => ?_⟩
      · by_cases hkn : k = n
        · subst hkn; exact ⟨u, hu, e3⟩
        · obtain ⟨v, hv, hv'⟩ := d1 k (by omega)
          refine ⟨v, hv, fun c l s hl hs => ?_⟩
          rw [e4 _ (off_of_ne hC (by omega) hn hkn hl hs), hv' c l s hl hs]
      · rw [e4 d (hd n (by omega)), d2 d fun k hk => hd k (by omega)]
      · obtain rfl : n = k := by omega
        rw [hu] at hv; cases hv; exact e2
  · exact ⟨⟨fun r hr _ => hr₀ r hr, ho, hs, hc⟩, ⟨fun k hk => by omega, fun d _ => by rw [hx₀]⟩,
      fun _ => h₀, fun k u h => by omega⟩

/-- Run of the improved preconditioner. -/
theorem preImproved_run (hC : C.Ok) {w : World V} {fF fS : Vec → Py Vec}
    (hw : PreReady C w.obj fF fS) {b x : Ref} (hb : b ∉ preScratch) (hx : x ∉ preScratch)
    (hfw : C.D.jumpsFw = false) :
    MarchOutcome C preScratch x (march C 0 (carry C) fF fS (w.heap b)) w
      (preTimeMarchingImproved C b x w) := by
  have hstart : preTimeMarchingImproved C b x w
      = slabForM C.D.q C.D.qstar C.D.N (preBody C b x) (w.put .bRhsPre 0) := by
    unfold preTimeMarchingImproved
    simp only [hfw, Bool.false_eq_true, if_false]
    rw [M.bind_ok (M.attr_some (a := ()) (by exact hw.bRhsPre)), M.bind_ok (setVec_run _ _ _)]
  rw [hstart]
  have hxr : x ≠ .bRhsPre := by
    simp only [preScratch, Set.mem_insert_iff, not_or] at hx; exact hx.1
  refine march_loop hC hb (ldOf := fun _ w => w.heap .bRhsPre) ?_ (put_same _ _ _) (put_ne _ hxr _)
    ?_ rfl rfl rfl
  · intro n w₁ hn ho
    exact preBody_run hC (w := w₁) (by rw [ho]; exact hw) hb hx hn
  · intro r hr
    simp only [preScratch, Set.mem_insert_iff, not_or] at hr
    rw [put_ne _ hr.1]

/-! ### the first variant -/

/-- Load of slab `n` of `pre_time_marching` when the previous slab ended with `u10`, `u20`. -/
noncomputable def oldLoad (C : Cfg V) (n : ℕ) (u10 u20 : V) : Vec :=
  assembleVec C.S C.D.ind C.fe C.slab (C.D.preLoad C.S n u10 u20)

/-- The load on the next slab produced by the slab solution `u`. -/
noncomputable def oldCarry (C : Cfg V) (u : Vec) : Vec :=
  oldLoad C 1 (C.slab.field C.fe u 0 C.D.q) (C.slab.field C.fe u 1 C.D.q)

/-- Scratch vectors of `pre_time_marching`. -/
def oldScratch : Set Ref := {.lPre, .uhPre, .u10Pre, .u20Pre}

theorem oldLoad_zero (u v u' v' : V) : oldLoad C 0 u v = oldLoad C 0 u' v' := by
  simp [oldLoad, Disc.preLoad]
theorem oldLoad_succ (n : ℕ) (u v : V) : oldLoad C (n + 1) u v = oldLoad C 1 u v := by
  simp [oldLoad, Disc.preLoad]

theorem nodeFun_top (hC : C.Ok) (c : Fin 4) (hc : c = 0 ∨ c = 1) (u v : Vec)
    (huv : ∀ e < C.slab.size, v e = u e) :
    nodeFun C.fe (fun s => v ((C.slab.collapse c C.D.q).getD s 0)) = C.slab.field C.fe u c C.D.q := by
  have hq : C.D.q < C.slab.nsub c := by
    rw [hC.slabN, slabSizes_eq, timeOrder_primal _ hc]; omega
  unfold nodeFun FSpace.field
  rw [if_pos ⟨by omega, by exact_mod_cast hq⟩]
  have hm : C.fe.m c = C.fe.mP := by rcases hc with rfl | rfl <;> rfl
  have hb : C.fe.basis c = C.fe.bP := by rcases hc with rfl | rfl <;> rfl
  rw [hm, hb]
  refine sum_congr rfl fun s hs => ?_
  have := huv _ (hC.slab.lt c C.D.q s hq (by rw [hm]; exact mem_range.1 hs))
  rw [Int.toNat_natCast, ← this]; rfl

theorem getVec_run' (r : Ref) (w : World V) : getVec r w = (.ok (w.heap r), w) := rfl
theorem copyTop_run (dst src : Ref) (idx : List ℕ) (w : World V) {v : Vec} (h : w.heap src = v) :
    copyTop dst src idx w = (.ok (), w.put dst fun s => v (idx.getD s 0)) := by subst h; rfl

theorem preOldBody_run (hC : C.Ok) {w : World V} {fF fS : Vec → Py Vec} (hw : SolReady C w.obj fF fS)
    {b x : Ref} (hb : b ∉ oldScratch) (hx : x ∉ oldScratch) {n : ℕ} (hn : n < C.D.N) :
    ∃ w', (∀ r, r ∉ oldScratch → r ≠ x → w'.heap r = w.heap r) ∧ w'.obj = w.obj ∧
      w'.sched = w.sched ∧ w'.clock = w.clock ∧
      match slabSol fF fS n (oldLoad C n (nodeFun C.fe (w.heap .u10Pre)) (nodeFun C.fe (w.heap .u20Pre))
          + pullS C n (w.heap b)) with
      | .ok u => preOldBody C b x (ctr C.D.q C.D.qstar n) n w = (.ok (), w') ∧
          oldLoad C (n + 1) (nodeFun C.fe (w'.heap .u10Pre)) (nodeFun C.fe (w'.heap .u20Pre))
            = oldCarry C u ∧ BlockEq C n (w'.heap x) u ∧
          ∀ d, Off C n d → w'.heap x d = w.heap x d
      | .error e => preOldBody C b x (ctr C.D.q C.D.qstar n) n w = (.error e, w') ∧
          w'.heap x = w.heap x := by
  simp only [oldScratch, Set.mem_insert_iff, Set.mem_singleton_iff, not_or] at hb hx
  obtain ⟨hb1, hb2, hb3, hb4⟩ := hb
  obtain ⟨hx1, hx2, hx3, hx4⟩ := hx
  set L := oldLoad C n (nodeFun C.fe (w.heap .u10Pre)) (nodeFun C.fe (w.heap .u20Pre)) with hL
  set R := L + pullS C n (w.heap b) with hR
  have e1 : preGather C b .lPre (ctr C.D.q C.D.qstar n) (w.put .lPre L) = (.ok (), w.put .lPre R) := by
    rw [preGather_run hC (w := w.put .lPre L) hw.dofmaps hb1 hn, put_same, put_ne _ hb1, put_put]
  obtain ⟨v, e2, e2'⟩ := preSolve_run (w := w.put .lPre R) (by exact hw) .lPre hn
  rw [put_same] at e2 e2'
  have e0 : preOldBody C b x (ctr C.D.q C.D.qstar n) n w = (do
      preSolve .lPre n
      let dm ← M.attr (fun w => w.obj.dofmaps)
      let t0 ← M.lift (pyIdx (dm.pre 0) C.D.q)
      copyTop .u10Pre .uhPre t0
      let t1 ← M.lift (pyIdx (dm.pre 1) C.D.q)
      copyTop .u20Pre .uhPre t1
      preWrite C x (ctr C.D.q C.D.qstar n)) (w.put .lPre R) := by
    unfold preOldBody
    rw [M.bind_ok (getVec_run' .u10Pre w), M.bind_ok (getVec_run' .u20Pre w),
      M.bind_ok (setVec_run _ _ _)]
    exact M.bind_ok e1
  rw [e0]
  rcases hs : slabSol fF fS n R with e | u
  · rw [hs] at e2
    refine ⟨(w.put .lPre R).put .uhPre v, ?_, rfl, rfl, rfl, ?_, ?_⟩
    · intro r hr _
      simp only [oldScratch, Set.mem_insert_iff, Set.mem_singleton_iff, not_or] at hr
      rw [put_ne _ hr.2.1, put_ne _ hr.1]
    · exact M.bind_error e2
    · rw [put_ne _ hx2, put_ne _ hx1]
  · rw [hs] at e2
    rw [M.bind_ok e2, M.bind_ok (M.attr_some (a := mkDofmaps C) (by exact hw.dofmaps)),
      M.bind_ok (a := C.slab.collapse 0 C.D.q)
        (by rw [M.lift_run]; exact congrArg (·, _) (pre_lookup C (j := 0) (Nat.lt_succ_self _))),
      M.bind_ok (copyTop_run .u10Pre .uhPre _ _ (put_same _ _ _)),
      M.bind_ok (a := C.slab.collapse 1 C.D.q)
        (by rw [M.lift_run]; exact congrArg (·, _) (pre_lookup C (j := 1) (Nat.lt_succ_self _))),
      M.bind_ok (copyTop_run .u20Pre .uhPre _ _ (v := v) (by rw [put_ne _ (by decide), put_same]))]
    set w3 := (((w.put .lPre R).put .uhPre v).put .u10Pre
        (fun s => v ((C.slab.collapse 0 C.D.q).getD s 0))).put .u20Pre
        (fun s => v ((C.slab.collapse 1 C.D.q).getD s 0)) with hw3
    obtain ⟨vx, e4, e4', e4''⟩ := preWrite_run hC (w := w3) (by exact hw.dofmaps) hx2 hn
    have hu : w3.heap .uhPre = v := by
      rw [hw3, put_ne _ (by decide), put_ne _ (by decide), put_same]
    refine ⟨w3.put x vx, ?_, rfl, rfl, rfl, ?_, ?_, ?_, ?_⟩
    · intro r hr hrx
      simp only [oldScratch, Set.mem_insert_iff, Set.mem_singleton_iff, not_or] at hr
      rw [put_ne _ hrx, hw3, put_ne _ hr.2.2.2, put_ne _ hr.2.2.1, put_ne _ hr.2.1, put_ne _ hr.1]
    · rw [e4]
    · rw [put_ne _ (Ne.symm hx3), put_ne _ (Ne.symm hx4), hw3, put_same, put_ne _ (by decide), put_same,
        oldLoad_succ, nodeFun_top hC 0 (Or.inl rfl) u v (e2' u hs),
        nodeFun_top hC 1 (Or.inr rfl) u v (e2' u hs)]
      rfl
    · intro c l s hl hs'
      rw [put_same, e4' c l s hl hs', hu, e2' u hs _ (hC.slab.lt c l s hl hs')]
    · intro d hd'
      rw [put_same, e4'' d hd', hw3, put_ne _ hx4, put_ne _ hx3, put_ne _ hx2, put_ne _ hx1]

/-- Run of `pre_time_marching`. -/
theorem preOld_run (hC : C.Ok) {w : World V} {fF fS : Vec → Py Vec}
    (hw : SolReady C w.obj fF fS) {b x : Ref} (hb : b ∉ oldScratch) (hx : x ∉ oldScratch) :
    MarchOutcome C oldScratch x (march C (oldLoad C 0 0 0) (oldCarry C) fF fS (w.heap b)) w
      (preTimeMarching C b x w) := by
  have hstart : preTimeMarching C b x w
      = slabForM C.D.q C.D.qstar C.D.N (preOldBody C b x) w := by
    unfold preTimeMarching
    rw [M.bind_ok (M.attr_some (a := mkDofmaps C) (by exact hw.dofmaps))]
  rw [hstart]
  refine march_loop hC hb (ldOf := fun n w => oldLoad C n (nodeFun C.fe (w.heap .u10Pre))
    (nodeFun C.fe (w.heap .u20Pre))) ?_ (oldLoad_zero _ _ _ _) rfl (fun _ _ => rfl) rfl rfl rfl
  intro n w₁ hn ho
  exact preOldBody_run hC (w := w₁) (by rw [ho]; exact hw) hb hx hn

end Dxss
