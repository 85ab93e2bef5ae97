import Verif.Lemmas.Setup
import Verif.Props.Object

/-!
# Properties C27–C29 and C34: preparing an object
-/

namespace Dxss
open Finset
set_option linter.unusedSectionVars false
variable {V : Type} [AddCommGroup V] [Module ℝ V] {C : Cfg V}

theorem runOps_append (a b : List (Op V)) (w : World V) : runOps C (a ++ b) w = runOps C b (runOps C a w) :=
  List.foldl_append

/-- Solvers set in a history, each computing the given functions. -/
structure SolversSet (C : Cfg V) (ops : List (Op V)) (fF fS : Vec → Py Vec) : Prop where
  first : ∃ s, .setSolverFirst s ∈ ops
  slab : ∃ s, .setSolverSlab s ∈ ops
  computesFirst : ∀ s, .setSolverFirst s ∈ ops → s.Computes C.slab.size fF
  computesSlab : ∀ s, .setSolverSlab s ∈ ops → s.Computes C.slab.size fS

theorem solReady_after {w : World V} (i : Inv C w) (hd : w.obj.dofmaps = some (mkDofmaps C))
    (h1 : w.obj.solverFirst = none) (h2 : w.obj.solverSlab = none) {ops : List (Op V)} {fF fS : Vec → Py Vec}
    (hs : SolversSet C ops fF fS) : SolReady C (runOps C ops w).obj fF fS := by
  obtain ⟨s₁, m₁⟩ := hs.first
  obtain ⟨s₂, m₂⟩ := hs.slab
  obtain ⟨t₁, e₁⟩ := Option.ne_none_iff_exists'.1 (solverFirst_set m₁ i)
  obtain ⟨t₂, e₂⟩ := Option.ne_none_iff_exists'.1 (solverSlab_set m₂ i)
  refine ⟨(keep_reach i ops).dofmaps _ hd, ⟨t₁, e₁, ?_⟩, fun _ => ⟨t₂, e₂, ?_⟩⟩
  · rcases solverFirst_mem e₁ with h | h
    · rw [h1] at h; cases h
    · exact hs.computesFirst _ h
  · rcases solverSlab_mem e₂ with h | h
    · rw [h2] at h; cases h
    · exact hs.computesSlab _ h

/-! ## C27 -/

theorem documented_ready (hwp : C.D.wellPosed = false) {w₀ : World V} (h₀ : w₀.Fresh) (hf : w₀.NoFail)
    {ops : List (Op V)} {fF fS : Vec → Py Vec} (hs : SolversSet C ops fF fS) :
    MfReady C (runOps C (.setupFE :: .prepare :: ops) w₀).obj ∧
      PreReady C (runOps C (.setupFE :: .prepare :: ops) w₀).obj fF fS := by
  have e : runOps C (.setupFE :: .prepare :: ops) w₀ = runOps C ops (runOps C [.setupFE, .prepare] w₀) := rfl
  have i := inv_reach (C := C) h₀ [.setupFE, .prepare]
  have ho := documented (C := C) h₀ hf
  have k := keep_reach i ops
  rw [e]
  refine ⟨⟨k.dofmaps _ (by rw [ho]; rfl), k.slabVecs _ (by rw [ho]; simp [preparedObj, hwp]),
    k.slabMatNJ _ (by rw [ho]; simp [preparedObj, hwp]), fun _ => k.coupVecs _ (by rw [ho]; rfl),
    fun _ => k.coupMat _ (by rw [ho]; rfl)⟩,
    ⟨solReady_after i (by rw [ho]; rfl) (by rw [ho]; rfl) (by rw [ho]; rfl) hs, k.bRhsPre _ (by rw [ho]; rfl),
      k.bndVecs _ (by rw [ho]; rfl), k.bndMat _ (by rw [ho]; rfl)⟩⟩

/-- C27: after `setup_spacetime_finite_elements`, `prepare_precondition_gmres` and any further calls
among which both solvers are set, the matrix-free product returns normally, and the preconditioner
returns normally unless a slab solver raises (then the exception is the solver's). -/
theorem C27_documented_sequence (hC : C.Ok) (hwp : C.D.wellPosed = false) (hfw : C.D.jumpsFw = false)
    {w₀ : World V} (h₀ : w₀.Fresh) (hf : w₀.NoFail) (ops : List (Op V)) {fF fS : Vec → Py Vec}
    (hs : SolversSet C ops fF fS) (x : InVec) (y : ℕ) :
    let w := runOps C (.setupFE :: .prepare :: ops) w₀
    (runOp C (.apply x y) w).1 = .ok () ∧
    ((runOp C (.preImproved x y) w).1 = .ok () ∨
      ∃ e r, (runOp C (.preImproved x y) w).1 = .error e ∧ (fF r = .error e ∨ fS r = .error e)) ∧
    ((runOp C (.pre x y) w).1 = .ok () ∨
      ∃ e r, (runOp C (.pre x y) w).1 = .error e ∧ (fF r = .error e ∨ fS r = .error e)) := by
  intro w
  obtain ⟨h1, h2⟩ := documented_ready hwp h₀ hf hs
  have hx : x.ref ∉ mfScratch := by cases x <;> simp [InVec.ref, mfScratch]
  have hx2 : x.ref ∉ preScratch := by cases x <;> simp [InVec.ref, preScratch]
  have hx3 : x.ref ∉ oldScratch := by cases x <;> simp [InVec.ref, oldScratch]
  have march_err : ∀ {l₀ : Vec} {ln : Vec → Vec} {bb : Vec} {n : ℕ} {e : PyErr},
      march C l₀ ln fF fS bb n = .error e → ∃ r, fF r = .error e ∨ fS r = .error e := by
    intro l₀ ln bb n e he
    induction n with
    | zero => exact ⟨_, .inl he⟩
    | succ n ih =>
      rw [march] at he
      rcases hm : march C l₀ ln fF fS bb n with e' | u
      · rw [hm] at he; cases he; exact ih hm
      · rw [hm] at he; exact ⟨_, .inr he⟩
  have out : ∀ {scr : Set Ref} {l₀ : Vec} {ln : Vec → Vec} {bb : Vec} {res : Py Unit × World V},
      MarchOutcome C scr (.user y) (march C l₀ ln fF fS bb) w res →
      (res.1 = .ok () ∨ ∃ e r, res.1 = .error e ∧ (fF r = .error e ∨ fS r = .error e)) := by
    intro scr l₀ ln bb res ho
    obtain ⟨-, -, -, -, hm⟩ := ho
    rcases hr : res.1 with e | u
    · rw [hr] at hm
      obtain ⟨n, -, he, -⟩ := hm
      obtain ⟨r, hr'⟩ := march_err he
      exact .inr ⟨e, r, rfl, hr'⟩
    · exact .inl rfl
  refine ⟨?_, out (preImproved_run hC h2 hx2 (by simp [preScratch]) hfw),
    out (preOld_run hC h2.toSolReady hx3 (by simp [oldScratch]))⟩
  obtain ⟨w', e, -⟩ := apply_run hC h1 hx (show Ref.user y ∉ mfScratch by simp [mfScratch])
  exact congrArg Prod.fst e

/-! ## C28 -/

/-- The full statement of C28: requesting the slab matrix before preparing makes no difference to the
outcome of the preconditioner.  It is false, see `C28_violated`. -/
def C28_statement (V : Type) [AddCommGroup V] [Module ℝ V] : Prop :=
  ∀ (C : Cfg V), C.Ok → C.D.wellPosed = false → C.D.jumpsFw = false →
    ∀ (w₀ : World V), w₀.Fresh → w₀.NoFail → ∀ (ops : List (Op V)) (fF fS : Vec → Py Vec),
      SolversSet C ops fF fS → ∀ (x : InVec) (y : ℕ),
      (runOp C (.preImproved x y) (runOps C (.setupFE :: .getSlabMatrix :: .prepare :: ops) w₀)).1
        = (runOp C (.preImproved x y) (runOps C (.setupFE :: .prepare :: ops) w₀)).1

/-- C28 fails in every configuration without forward jumps: once the slab matrix was requested before
preparation, the improved preconditioner raises `AttributeError` whatever is called later. -/
theorem C28_always_fails (hfw : C.D.jumpsFw = false) {w₀ : World V} (h₀ : w₀.Fresh) (hf : w₀.NoFail)
    (ops : List (Op V)) (x : InVec) (y : ℕ) :
    (runOp C (.preImproved x y) (runOps C (.setupFE :: .getSlabMatrix :: .prepare :: ops) w₀)).1
      = .error .attributeError := by
  have ho := early_slab_matrix (C := C) h₀ hf
  have hn := stuck (inv_reach (C := C) h₀ [.setupFE, .getSlabMatrix, .prepare]) (by rw [ho]; simp [preparedObj])
    (by rw [ho]) ops
  exact congrArg Prod.fst (preImproved_no_vector (w := runOps C (.setupFE :: .getSlabMatrix :: .prepare :: ops) w₀)
    hfw hn x.ref (.user y))

/-- C28, what does hold: the matrix-free product and the first variant of the preconditioner are not
affected by requesting the slab matrix early. -/
theorem C28_product_unaffected_partial (hC : C.Ok) {w₀ : World V} (h₀ : w₀.Fresh) (hf : w₀.NoFail)
    (ops : List (Op V)) {fF fS : Vec → Py Vec} (hs : SolversSet C ops fF fS) :
    let w := runOps C (.setupFE :: .getSlabMatrix :: .prepare :: ops) w₀
    MfReady C w.obj ∧ SolReady C w.obj fF fS ∧ ∀ (x : InVec) (y : ℕ), (runOp C (.apply x y) w).1 = .ok () := by
  intro w
  have ho := early_slab_matrix (C := C) h₀ hf
  have i := inv_reach (C := C) h₀ [.setupFE, .getSlabMatrix, .prepare]
  have k := keep_reach i ops
  have hr : MfReady C w.obj := ⟨k.dofmaps _ (by rw [ho]; rfl), k.slabVecs _ (by rw [ho]),
    k.slabMatNJ _ (by rw [ho]), fun _ => k.coupVecs _ (by rw [ho]; rfl), fun _ => k.coupMat _ (by rw [ho]; rfl)⟩
  refine ⟨hr, solReady_after i (by rw [ho]; rfl) (by rw [ho]; rfl) (by rw [ho]; rfl) hs, fun x y => ?_⟩
  have hx : x.ref ∉ mfScratch := by cases x <;> simp [InVec.ref, mfScratch]
  obtain ⟨w', e, -⟩ := apply_run hC hr hx (show Ref.user y ∉ mfScratch by simp [mfScratch])
  exact congrArg Prod.fst e

/-! ## C29 -/

/-- The full statement of C29.  It is false, see `C29_violated`. -/
def C29_statement (V : Type) [AddCommGroup V] [Module ℝ V] : Prop :=
  ∀ (C : Cfg V), C.Ok → 1 ≤ C.D.N → C.D.wellPosed = true → ∀ (w₀ : World V), w₀.Fresh → w₀.NoFail →
    ∀ (x : InVec) (y : ℕ), (runOp C (.apply x y) (runOps C [.setupFE, .prepare] w₀)).1 = .ok ()

/-- C29 fails in every well-posed configuration: after preparation the product raises
`AttributeError`. -/
theorem C29_always_fails (hN : 1 ≤ C.D.N) (hwp : C.D.wellPosed = true) {w₀ : World V} (h₀ : w₀.Fresh)
    (hf : w₀.NoFail) (x : InVec) (y : ℕ) :
    (runOp C (.apply x y) (runOps C [.setupFE, .prepare] w₀)).1 = .error .attributeError := by
  have ho := documented (C := C) h₀ hf
  exact apply_no_vectors hN (by rw [ho]; rfl) (by rw [ho]; simp [preparedObj, hwp]) _ _

/-- C29: with `well_posed=True` preparing never builds the jump-free slab matrix, so without an
explicit request for slab matrices no history makes the product return. -/
theorem C29_never_without_slab_request (hN : 1 ≤ C.D.N) (hwp : C.D.wellPosed = true) {w₀ : World V}
    (h₀ : w₀.Fresh) (ops : List (Op V))
    (hops : ∀ op ∈ ops, op ≠ .setupSlab false ∧ op ≠ .getSlabBfi ∧ op ≠ .getSlabMatrix) (x : InVec) (y : ℕ) :
    (runOp C (.apply x y) (runOps C ops w₀)).1 ≠ .ok () := by
  have hnone : ∀ (ops : List (Op V)) (w : World V), w.obj.slabMatNJ = none →
      (∀ op ∈ ops, op ≠ .setupSlab false ∧ op ≠ .getSlabBfi ∧ op ≠ .getSlabMatrix) →
      (runOps C ops w).obj.slabMatNJ = none := by
    intro ops
    induction ops with
    | nil => exact fun w h _ => h
    | cons op ops ih =>
      intro w h hops
      refine ih _ ?_ fun o ho => hops o (by simp [ho])
      change (runOp C op w).2.obj.slabMatNJ = none
      obtain ⟨n1, n2, n3⟩ := hops op (by simp)
      by_cases hb : op.BuildsSlab
      · have : op = .prepare := by
          cases op with
          | prepare => rfl
          | setupSlab j => cases j
                           · exact absurd rfl n1
                           · exact hb.elim
          | getSlabBfi => exact absurd rfl n2
          | getSlabMatrix => exact absurd rfl n3
          | _ => exact hb.elim
        subst this
        have hp : Pres (Rel.frame fun o : Obj V => o.slabMatNJ) (prepareGmres C) := by
          have g : ∀ op : Op V, ¬ op.BuildsSlab → Pres (Rel.frame fun o : Obj V => o.slabMatNJ) (runOp C op) :=
            fun op h w => congrArg Prod.snd (frame_slab (C := C) op h w)
          have f1 := g (.setupSlab true) id
          have f2 := g .setupCoupling id
          have f3 := g .setupRhs id
          have f4 := g .setupScaledMass id
          have k4 : Pres (Rel.frame fun o : Obj V => o.slabMatNJ) (do
              let w ← M.get
              if w.obj.bndMat.isNone then setupScaledMass C : WM V Unit) := .bind .get fun _ => .ite f4 (.pure _)
          have k3 : Pres (Rel.frame fun o : Obj V => o.slabMatNJ) (do
              let w ← M.get
              if w.obj.rhs.isNone then setupRhs C
              let w ← M.get
              if w.obj.bndMat.isNone then setupScaledMass C : WM V Unit) := by
            refine .bind .get fun _ => ?_
            split
            · exact .bind f3 fun _ => k4
            · exact k4
          have k2 : Pres (Rel.frame fun o : Obj V => o.slabMatNJ) (do
              let w ← M.get
              if w.obj.coupMat.isNone then setupCoupling C
              let w ← M.get
              if w.obj.rhs.isNone then setupRhs C
              let w ← M.get
              if w.obj.bndMat.isNone then setupScaledMass C : WM V Unit) := by
            refine .bind .get fun _ => ?_
            split
            · exact .bind f2 fun _ => k3
            · exact k3
          unfold prepareGmres
          simp only [hwp, Bool.not_true, Bool.and_false, Bool.false_eq_true, if_false]
          refine .bind .get fun _ => ?_
          split
          · exact .bind f1 fun _ => .bind frame_ext fun _ => .bind (frame_mod fun _ => rfl) fun _ =>
              .bind (frame_setVec _ _) fun _ => .bind .get fun _ => k2
          · exact .bind .get fun _ => k2
        exact (hp w).trans h
      · exact (congrArg Prod.snd (frame_slab (C := C) op hb w)).trans h
  intro hok
  have hr := ready_of_apply hN (inv_reach (C := C) h₀ ops) (Prod.ext hok rfl)
  have := hnone ops w₀ (by rw [h₀]) hops
  rw [hr.slabMat] at this; cases this

/-- C29, what does hold: an explicit `setup_slab_matrix(False)` after preparation enables the
product. -/
theorem C29_explicit_setup_partial (hC : C.Ok) {w₀ : World V} (h₀ : w₀.Fresh) (hf : w₀.NoFail)
    (ops : List (Op V)) (x : InVec) (y : ℕ) :
    (runOp C (.apply x y) (runOps C (.setupFE :: .prepare :: .setupSlab false :: ops) w₀)).1 = .ok () := by
  have ho := documented (C := C) h₀ hf
  have i := inv_reach (C := C) h₀ [.setupFE, .prepare]
  have hnf : (runOps C [.setupFE, .prepare] w₀).NoFail := NoFail.of_keep hf (keep_reach (Inv.of_fresh h₀) _)
  have hpost : ∀ w : World V, w.obj.dofmaps = some (mkDofmaps C) → w.NoFail →
      (setupSlabMatrix C false w).2.obj.slabVecs = some () ∧
      (setupSlabMatrix C false w).2.obj.slabMatNJ = some (slabMatOf C false) := by
    intro w hd hs
    have h' : ∀ k, w.sched (w.clock + k) = false := fun k => hs _ (Nat.le_add_right _ _)
    have h0 : w.sched w.clock = false := h' 0
    cases hwp : C.D.wellPosed <;>
    simp [setupSlabMatrix, M.bind_run, ext, h', h0, hwp, M.attr, hd, modObj, setVec, M.modify]
  obtain ⟨p1, p2⟩ := hpost _ (by rw [ho]; rfl) hnf
  have k1 := (hist_op (C := C) (b := false) (.setupSlab false) (fun h => by cases h) _ i).2
  have k2 := keep_reach (inv_reach (C := C) h₀ [.setupFE, .prepare, .setupSlab false]) ops
  have hr : MfReady C (runOps C (.setupFE :: .prepare :: .setupSlab false :: ops) w₀).obj :=
    ⟨k2.dofmaps _ (k1.dofmaps _ (by rw [ho]; rfl)), k2.slabVecs _ p1, k2.slabMatNJ _ p2,
      fun _ => k2.coupVecs _ (k1.coupVecs _ (by rw [ho]; rfl)), fun _ => k2.coupMat _ (k1.coupMat _ (by rw [ho]; rfl))⟩
  have hx : x.ref ∉ mfScratch := by cases x <;> simp [InVec.ref, mfScratch]
  obtain ⟨w', e, -⟩ := apply_run hC hr hx (show Ref.user y ∉ mfScratch by simp [mfScratch])
  exact congrArg Prod.fst e

/-! ## C34 -/

/-- The schedule in which exactly the `k`-th external step from now fails. -/
def World.FailsAt (w : World V) (k : ℕ) : Prop := ∀ j, w.sched j = decide (j = w.clock + k)

/-- The full statement of C34.  It is false, see `C34_violated`. -/
def C34_statement (V : Type) [AddCommGroup V] [Module ℝ V] : Prop :=
  ∀ (C : Cfg V) (w : World V) (u v : V), w.obj = setUpObj C u v → ∀ k, w.FailsAt k →
    (prepareGmres C w).1 ≠ .ok () →
    (prepareGmres C (prepareGmres C w).2).1 = .ok () ∧
    (prepareGmres C (prepareGmres C w).2).2.obj = preparedObj C u v

/-- The steps whose failure cannot be repaired by preparing again: the vector allocations that follow
the storing of the matrix which guards them. -/
def badStep (wellPosed : Bool) (k : ℕ) : Prop :=
  if wellPosed then k = 1 ∨ k = 3 ∨ k = 6 else k = 1 ∨ k = 5 ∨ k = 8

/-- Number of external steps of a preparation. -/
def prepareSteps (wellPosed : Bool) : ℕ := if wellPosed then 7 else 9

macro "crash_tac" : tactic => `(tactic|
  simp [prepareGmres, setupSlabMatrix, setupCoupling, setupRhs, setupScaledMass, M.bind_run, ext, setUpObj, M.attr,
    M.get, modObj, setVec, M.modify, add_assoc, preparedObj, *])

/-- C34, what does hold: if preparation fails at any step other than the three allocations, preparing
again gives exactly the object and the vectors of an undisturbed preparation. -/
theorem C34_retry_partial {w : World V} {u v : V} (h : w.obj = setUpObj C u v) {k : ℕ}
    (hk : k < prepareSteps C.D.wellPosed) (hb : ¬ badStep C.D.wellPosed k) (hs : w.FailsAt k) :
    (prepareGmres C w).1 = .error .runtimeError ∧
    (prepareGmres C (prepareGmres C w).2).1 = .ok () ∧
    (prepareGmres C (prepareGmres C w).2).2.obj = preparedObj C u v ∧
    (prepareGmres C (prepareGmres C w).2).2.heap
      = (prepareGmres C { w with sched := fun _ => false }).2.heap := by
  obtain ⟨o, hp, s, c⟩ := w
  simp only [World.FailsAt] at h hs
  subst h
  cases hwp : C.D.wellPosed <;> simp only [hwp, prepareSteps, badStep, Bool.false_eq_true, if_false, if_true] at hk hb
  · interval_cases k <;> first | (exfalso; omega) | crash_tac
  · interval_cases k <;> first | (exfalso; omega) | crash_tac

/-- C34 fails at each of the three allocations: preparing again reports success but leaves the vectors
unallocated. -/
theorem C34_bad_steps {w : World V} {u v : V} (h : w.obj = setUpObj C u v) {k : ℕ}
    (hb : badStep C.D.wellPosed k) (hs : w.FailsAt k) :
    (prepareGmres C w).1 = .error .runtimeError ∧
    (prepareGmres C (prepareGmres C w).2).1 = .ok () ∧
    (prepareGmres C (prepareGmres C w).2).2.obj ≠ preparedObj C u v ∧
    ((prepareGmres C (prepareGmres C w).2).2.obj.bRhsPre = none ∨
      (prepareGmres C (prepareGmres C w).2).2.obj.coupVecs = none ∨
      (prepareGmres C (prepareGmres C w).2).2.obj.bndVecs = none) := by
  obtain ⟨o, hp, s, c⟩ := w
  simp only [World.FailsAt] at h hs
  subst h
  cases hwp : C.D.wellPosed <;> simp only [hwp, badStep, Bool.false_eq_true, if_false, if_true] at hb <;>
  rcases hb with rfl | rfl | rfl <;> crash_tac

/-- Completeness of the case distinction: a preparation has exactly these steps. -/
theorem C34_no_other_steps {w : World V} {u v : V} (h : w.obj = setUpObj C u v) {k : ℕ}
    (hk : prepareSteps C.D.wellPosed ≤ k) (hs : w.FailsAt k) : (prepareGmres C w).1 = .ok () := by
  obtain ⟨o, hp, s, c⟩ := w
  simp only [World.FailsAt] at h hs
  subst h
  cases hwp : C.D.wellPosed <;> simp only [hwp, prepareSteps, Bool.false_eq_true, if_false, if_true] at hk
  · have h9 : ∀ j < 9, s (c + j) = false := fun j hj => by rw [hs]; simp; omega
    have h0 : s c = false := h9 0 (by omega)
    have := h9 1 (by omega); have := h9 2 (by omega); have := h9 3 (by omega); have := h9 4 (by omega)
    have := h9 5 (by omega); have := h9 6 (by omega); have := h9 7 (by omega); have := h9 8 (by omega)
    clear hs h9
    crash_tac
  · have h9 : ∀ j < 7, s (c + j) = false := fun j hj => by rw [hs]; simp; omega
    have h0 : s c = false := h9 0 (by omega)
    have := h9 1 (by omega); have := h9 2 (by omega); have := h9 3 (by omega); have := h9 4 (by omega)
    have := h9 5 (by omega); have := h9 6 (by omega)
    clear hs h9
    crash_tac

/-- C34 is false. -/
theorem C34_violated (C : Cfg V) : ¬ C34_statement V := by
  intro h
  let w : World V := ⟨setUpObj C 0 0, fun _ => 0, fun j => decide (j = 1), 0⟩
  have hs : w.FailsAt 1 := fun j => by simp [w]
  have hb : badStep C.D.wellPosed 1 := by unfold badStep; split <;> simp
  obtain ⟨e, -, ne, -⟩ := C34_bad_steps (C := C) (w := w) rfl hb hs
  exact ne (h C w 0 0 rfl 1 hs (by rw [e]; simp)).2

/-- A failure of the first allocation is permanent: no later call makes the improved preconditioner
work. -/
theorem C34_first_allocation_permanent (hfw : C.D.jumpsFw = false) {w₀ : World V} (h₀ : w₀.Fresh)
    (before after : List (Op V)) (h : (runOps C before w₀).obj = setUpObj C 0 0)
    (hs : (runOps C before w₀).FailsAt 1) (x : InVec) (y : ℕ) :
    (runOp C (.preImproved x y) (runOps C (before ++ .prepare :: after) w₀)).1 = .error .attributeError := by
  rw [runOps_append]
  have i1 := (hist_op (C := C) (b := false) .prepare (fun h => by cases h) _ (inv_reach (C := C) h₀ before)).1
  have hp : (runOp C .prepare (runOps C before w₀)).2.obj.slabMat ≠ none ∧
      (runOp C .prepare (runOps C before w₀)).2.obj.bRhsPre = none := by
    generalize runOps C before w₀ = w at h hs
    obtain ⟨o, hp, s, c⟩ := w
    simp only [World.FailsAt] at h hs
    subst h
    cases hwp : C.D.wellPosed <;> simp only [runOp] <;> crash_tac
  exact congrArg Prod.fst (preImproved_no_vector hfw (stuck i1 hp.1 hp.2 after) x.ref (.user y))

/-! ## Non-vacuity and refutations on the concrete configuration -/

namespace Example
open Polynomial

/-- A new object whose vectors contain rubbish. -/
noncomputable def freshWorld {V : Type} [AddCommGroup V] [Module ℝ V] (heap : Ref → Vec) : World V := ⟨{}, heap, fun _ => false, 0⟩
theorem freshWorld_fresh {V : Type} [AddCommGroup V] [Module ℝ V] (heap : Ref → Vec) : (freshWorld (V := V) heap).Fresh := rfl
theorem freshWorld_noFail {V : Type} [AddCommGroup V] [Module ℝ V] (heap : Ref → Vec) : (freshWorld (V := V) heap).NoFail := fun _ _ => rfl

/-- A history that sets both solvers, replaces one, and mixes in failing calls. -/
noncomputable def someOps : List (Op ℝ[X]) :=
  [.setSolverSlab (solverOf scaleSol), .getMatrix true, .preTwolvl .rhs 3, .prepare,
    .setSolverFirst (solverOf failSol), .getRhs, .setSolverSlab (solverOf scaleSol), .errors (.user 2)]

theorem someOps_set (C : Cfg ℝ[X]) : SolversSet C someOps failSol scaleSol where
  first := ⟨solverOf failSol, by simp [someOps]⟩
  slab := ⟨solverOf scaleSol, by simp [someOps]⟩
  computesFirst s hs := by
    simp [someOps] at hs; subst hs; exact solverOf_computes _ _
  computesSlab s hs := by
    simp [someOps] at hs; subst hs; exact solverOf_computes _ _

example (heap : Ref → Vec) := C27_documented_sequence (cfg_ok false false) rfl rfl (freshWorld_fresh heap)
  (freshWorld_noFail heap) someOps (someOps_set _) (.user 0) 1
example (heap : Ref → Vec) := C28_always_fails (C := cfg false false) rfl (freshWorld_fresh heap)
  (freshWorld_noFail heap) someOps .rhs 1
example (heap : Ref → Vec) := C28_product_unaffected_partial (cfg_ok false false) (freshWorld_fresh heap)
  (freshWorld_noFail heap) someOps (someOps_set _)
example (heap : Ref → Vec) := C29_always_fails (C := cfg false true) (by decide) rfl (freshWorld_fresh heap)
  (freshWorld_noFail heap) (.user 0) 1
example (heap : Ref → Vec) := C29_explicit_setup_partial (cfg_ok false true) (freshWorld_fresh heap)
  (freshWorld_noFail heap) someOps (.user 0) 1
example (heap : Ref → Vec) := C29_never_without_slab_request (C := cfg false true) (by decide) rfl
  (freshWorld_fresh heap) (.setupFE :: .prepare :: someOps) (by simp [someOps]) (.user 0) 1

/-- C28 is false. -/
theorem C28_violated : ¬ C28_statement ℝ[X] := by
  intro h
  have hs : SolversSet (cfg false false) [.setSolverFirst (solverOf scaleSol), .setSolverSlab (solverOf scaleSol)]
      scaleSol scaleSol :=
    ⟨⟨solverOf scaleSol, by simp⟩, ⟨solverOf scaleSol, by simp⟩, fun s hs => by simp at hs; subst hs; exact solverOf_computes _ _,
      fun s hs => by simp at hs; subst hs; exact solverOf_computes _ _⟩
  have h1 := h (cfg false false) (cfg_ok _ _) rfl rfl (freshWorld fun _ => 0) (freshWorld_fresh _)
    (freshWorld_noFail _) _ _ _ hs (.user 0) 1
  rw [C28_always_fails rfl (freshWorld_fresh _) (freshWorld_noFail _)] at h1
  rcases (C27_documented_sequence (cfg_ok false false) rfl rfl (freshWorld_fresh fun _ => 0) (freshWorld_noFail _)
    _ hs (.user 0) 1).2.1 with h2 | ⟨e, r, -, h3⟩
  · rw [h2] at h1; cases h1
  · rcases h3 with h3 | h3 <;> cases h3

/-- C29 is false. -/
theorem C29_violated : ¬ C29_statement ℝ[X] := by
  intro h
  have h1 := h (cfg false true) (cfg_ok _ _) (by decide) rfl (freshWorld fun _ => 0) (freshWorld_fresh _)
    (freshWorld_noFail _) (.user 0) 1
  rw [C29_always_fails (by decide) rfl (freshWorld_fresh _) (freshWorld_noFail _)] at h1
  cases h1

/-- Crash points in both configurations. -/
noncomputable def crashWorld (C : Cfg ℝ[X]) (heap : Ref → Vec) (k : ℕ) : World ℝ[X] :=
  ⟨setUpObj C X 1, heap, fun j => decide (j = 7 + k), 7⟩
theorem crashWorld_failsAt (C : Cfg ℝ[X]) (heap : Ref → Vec) (k : ℕ) : (crashWorld C heap k).FailsAt k := fun _ => rfl

example (heap : Ref → Vec) := C34_retry_partial (C := cfg false false) (w := crashWorld _ heap 3) rfl (k := 3)
  (by decide) (by simp [badStep, cfg, disc]) (crashWorld_failsAt _ heap 3)
example (heap : Ref → Vec) := C34_bad_steps (C := cfg false true) (w := crashWorld _ heap 3) rfl (k := 3)
  (by simp [badStep, cfg, disc]) (crashWorld_failsAt _ heap 3)

example : ¬ C34_statement ℝ[X] := C34_violated (cfg false false)

end Example
end Dxss
