import Verif.Props.Retry
import Verif.Props.Requests

/-!
# Property C88: requests that fail
-/

namespace Dxss
set_option linter.unusedSectionVars false
variable {V : Type} [AddCommGroup V] [Module ℝ V] {C : Cfg V}

/-- The requests for operators, forms and vectors. -/
def Op.Request : Op V → Prop
  | .getMatrix _ | .getBfi _ | .getRhs | .getLfi | .getSlabMatrix | .getSlabBfi => True
  | _ => False

/-- The requests for the slab matrix and form, which are built together with the jump-free ones. -/
def Op.SlabRequest : Op V → Prop
  | .getSlabMatrix | .getSlabBfi => True
  | _ => False

/-- The world `w` at a later moment, nothing else having changed. -/
def World.later (w : World V) (t : ℕ) : World V := { w with clock := t }

/-- The full statement of C88: a request that fails (because an external operation does) leaves the object as it was.
It is false, see `C88_violated`. -/
def C88_statement (V : Type) [AddCommGroup V] [Module ℝ V] : Prop :=
  ∀ (C : Cfg V) (w₀ : World V), C.Ok → w₀.Fresh → ∀ (ops : List (Op V)) (op : Op V), op.Request →
    ∀ (e : PyErr) (w' : World V), runOp C op (runOps C ops w₀) = (.error e, w') →
    Indistinguishable C w' ((runOps C ops w₀).later w'.clock)

/-- The computation changes nothing when it fails. -/
def NoTrace {α : Type} (x : WM V α) : Prop := ∀ w e w', x w = (.error e, w') → w' = w.later w'.clock

namespace NoTrace
variable {α β : Type}

theorem pure (a : α) : NoTrace (Pure.pure a : WM V α) := fun w e w' h => by cases h
theorem attr (f : World V → Option α) (e : PyErr) : NoTrace (M.attr f e) := by
  intro w e' w' h
  unfold M.attr at h
  split at h <;> cases h
  rfl
theorem ext : NoTrace (Dxss.ext : WM V Unit) := by
  intro w e w' h
  unfold Dxss.ext at h
  split at h <;> cases h
  rfl

/-- The first step changes nothing but the time in any case. -/
theorem bind {x : WM V α} {f : α → WM V β} (hx : ∀ w, (x w).2 = w.later (x w).2.clock) (hf : ∀ a, NoTrace (f a)) :
    NoTrace (x >>= f) := by
  intro w e w' h
  rw [M.bind_run] at h
  have hw := hx w
  rcases hr : x w with ⟨e' | a, v⟩
  · rw [hr] at h hw; cases h; exact hw
  · rw [hr] at h hw
    have := hf a v e w' h
    rw [this, show v = w.later v.clock from hw]
    rfl

/-- The rest cannot fail. -/
theorem bindOk {x : WM V α} {f : α → WM V β} (hx : NoTrace x) (hf : ∀ a w, ∃ b w', f a w = (.ok b, w')) :
    NoTrace (x >>= f) := by
  intro w e w' h
  rw [M.bind_run] at h
  rcases hr : x w with ⟨e' | a, v⟩
  · rw [hr] at h; cases h; exact hx w _ _ hr
  · rw [hr] at h
    obtain ⟨b, w'', hb⟩ := hf a v
    change f a v = _ at h
    rw [hb] at h; cases h

theorem setupMatrix (p : Bool) : NoTrace (setupSpacetimeMatrix C p) :=
  bind (fun w => by unfold M.attr; split <;> rfl) fun _ => bindOk ext fun _ w => ⟨_, w, rfl⟩

theorem setupRhs : NoTrace (setupRhs C) :=
  bind (fun w => by unfold M.attr; split <;> rfl) fun _ => bind (fun w => by unfold M.attr; split <;> rfl) fun _ =>
    bind (fun w => by unfold M.attr; split <;> rfl) fun _ => bindOk ext fun _ w => ⟨_, _, rfl⟩

theorem setupSlabTrue : NoTrace (setupSlabMatrix C true) :=
  bind (fun w => by unfold M.attr; split <;> rfl) fun _ => bindOk ext fun _ w => by
    cases h : C.D.wellPosed
    · exact ⟨_, _, rfl⟩
    · exact ⟨_, _, rfl⟩

end NoTrace

/-- C88, what does hold (1): a failing request for the space-time matrix, its form, the right-hand side or its form
changes nothing, from whatever state. -/
theorem C88_no_trace_partial {op : Op V} (hop : op.Request) (hs : ¬ op.SlabRequest) {w w' : World V} {e : PyErr}
    (h : runOp C op w = (.error e, w')) : w' = w.later w'.clock ∧ Indistinguishable C w' (w.later w'.clock) := by
  have key : NoTrace (runOp C op) := by
    cases op with
    | getMatrix p =>
      refine NoTrace.bindOk ?_ fun _ w => ⟨_, w, rfl⟩
      refine NoTrace.bind (fun w => rfl) fun w => ?_
      split
      · exact .pure _
      · exact .bindOk (.setupMatrix p) fun _ w => ⟨_, _, rfl⟩
    | getBfi p =>
      refine NoTrace.bindOk ?_ fun _ w => ⟨_, w, rfl⟩
      refine NoTrace.bind (fun w => rfl) fun w => ?_
      split
      · exact .pure _
      · exact .bindOk (.setupMatrix p) fun _ w => ⟨_, _, rfl⟩
    | getRhs =>
      refine NoTrace.bindOk ?_ fun _ w => ⟨_, w, rfl⟩
      refine NoTrace.bind (fun w => rfl) fun w => ?_
      split
      · exact .bindOk .setupRhs fun _ w => ⟨_, _, rfl⟩
      · exact .pure _
    | getLfi =>
      refine NoTrace.bindOk ?_ fun _ w => ⟨_, w, rfl⟩
      refine NoTrace.bind (fun w => rfl) fun w => ?_
      split
      · intro w₁ e w₂ h
        rw [M.bind_run] at h
        rcases hr : setupRhs C w₁ with ⟨e' | a, v⟩
        · rw [hr] at h; cases h; exact NoTrace.setupRhs _ _ _ hr
        · rw [hr] at h
          rcases setupRhs_cases (C := C) w₁ with ⟨⟨e', he⟩, -⟩ | ⟨u', v', -, -, -, -, he⟩
          · rw [hr] at he; cases he
          · rw [hr] at he
            cases he
            cases h
      · exact .attr _ _
    | getSlabMatrix => exact absurd trivial hs
    | getSlabBfi => exact absurd trivial hs
    | _ => exact hop.elim
  have hw := key w e w' h
  refine ⟨hw, ?_⟩
  rw [← hw]
  exact (Sim.refl _).indistinguishable

/-! ## The slab matrix -/

theorem frame_prepare_wp (hwp : C.D.wellPosed = true) :
    Pres (Rel.frame fun o : Obj V => (o.slabVecs, o.slabMatNJ)) (prepareGmres C) := by
  have g : ∀ op : Op V, ¬ op.BuildsSlab → Pres (Rel.frame fun o : Obj V => (o.slabVecs, o.slabMatNJ)) (runOp C op) :=
    fun op h => frame_slab (C := C) op h
  have k4 : Pres (Rel.frame fun o : Obj V => (o.slabVecs, o.slabMatNJ)) (do
      let w ← M.get
      if w.obj.bndMat.isNone then setupScaledMass C : WM V Unit) :=
    .bind .get fun _ => .ite (g .setupScaledMass id) (.pure _)
  have k3 : Pres (Rel.frame fun o : Obj V => (o.slabVecs, o.slabMatNJ)) (do
      let w ← M.get
      if w.obj.rhs.isNone then setupRhs C
      let w ← M.get
      if w.obj.bndMat.isNone then setupScaledMass C : WM V Unit) := by
    refine .bind .get fun _ => ?_
    split
    · exact .bind (g .setupRhs id) fun _ => k4
    · exact k4
  have k2 : Pres (Rel.frame fun o : Obj V => (o.slabVecs, o.slabMatNJ)) (do
      let w ← M.get
      if w.obj.coupMat.isNone then setupCoupling C
      let w ← M.get
      if w.obj.rhs.isNone then setupRhs C
      let w ← M.get
      if w.obj.bndMat.isNone then setupScaledMass C : WM V Unit) := by
    refine .bind .get fun _ => ?_
    split
    · exact .bind (g .setupCoupling id) fun _ => k3
    · exact k3
  unfold prepareGmres
  simp only [hwp, Bool.not_true, Bool.and_false, Bool.false_eq_true, if_false]
  refine .bind .get fun _ => ?_
  split
  · exact .bind (g (.setupSlab true) id) fun _ => .bind frame_ext fun _ => .bind (frame_mod fun _ => rfl) fun _ =>
      .bind (frame_setVec _ _) fun _ => .bind .get fun _ => k2
  · exact .bind .get fun _ => k2

/-- The slab matrix is there but the work vectors of the jump-free one are not. -/
structure HalfBuilt (C : Cfg V) (w : World V) : Prop where
  inv : Inv C w
  dof : w.obj.dofmaps = some (mkDofmaps C)
  vecs : w.obj.slabVecs = none
  mat : w.obj.slabMat = some (slabMatOf C true)
  bfi : w.obj.slabBfi = some (C.D.slabForm true)

theorem HalfBuilt.op (hwp : C.D.wellPosed = true) {w : World V} (h : HalfBuilt C w) {op : Op V} (hop : op ≠ .setupSlab false) :
    HalfBuilt C (runOp C op w).2 := by
  obtain ⟨i, k⟩ := hist_op (C := C) (b := false) op (fun h => by cases h) w h.inv
  refine ⟨i, k.dofmaps _ h.dof, ?_, k.slabMat _ h.mat, k.slabBfi _ h.bfi⟩
  by_cases hb : op.BuildsSlab
  · cases op with
    | prepare => exact (congrArg Prod.fst (frame_prepare_wp (C := C) hwp w)).trans h.vecs
    | setupSlab j => cases j
                     · exact absurd rfl hop
                     · exact hb.elim
    | getSlabBfi =>
      have : getSlabBfi C w = (.ok w.obj.slabBfi, w) := by
        unfold getSlabBfi
        rw [M.bind_ok (M.get_run w)]
        simp [h.bfi, M.bind_run, M.get]
      change ((getSlabBfi C).void w).2.obj.slabVecs = none
      rw [void_snd, this]; exact h.vecs
    | getSlabMatrix =>
      have : getSlabMatrix C w = (.ok w.obj.slabMat, w) := by
        unfold getSlabMatrix
        rw [M.bind_ok (M.get_run w)]
        simp [h.mat, M.bind_run, M.get]
      change ((getSlabMatrix C).void w).2.obj.slabVecs = none
      rw [void_snd, this]; exact h.vecs
    | _ => exact hb.elim
  · exact (congrArg Prod.fst (frame_slab (C := C) op hb w)).trans h.vecs

theorem HalfBuilt.ops (hwp : C.D.wellPosed = true) {ops : List (Op V)} (hops : .setupSlab false ∉ ops) {w : World V}
    (h : HalfBuilt C w) : HalfBuilt C (runOps C ops w) := by
  induction ops generalizing w with
  | nil => exact h
  | cons op ops ih =>
    exact ih (fun ho => hops (by simp [ho])) (h.op hwp fun e => hops (by simp [e]))

/-- A new object on which the finite elements have been set up, and whose external operation number `k` fails. -/
theorem interrupted {w₀ : World V} (h₀ : w₀.Fresh) {op : Op V} (hop : op.SlabRequest) {k : ℕ} (hk : k = 1 ∨ k = 2)
    (hs : w₀.FailsAt (1 + k)) :
    (runOp C op (runOps C [.setupFE] w₀)).1 = .error .runtimeError ∧ HalfBuilt C (runOps C [.setupFE, op] w₀) := by
  obtain ⟨ho, hf, -⟩ := setupFE_step (C := C) h₀ hs
  have i := inv_reach (C := C) h₀ [.setupFE, op]
  have e : runOps C [.setupFE, op] w₀ = (runOp C op (runOps C [.setupFE] w₀)).2 := rfl
  rw [e] at i ⊢
  generalize runOps C [.setupFE] w₀ = w at *
  obtain ⟨o, hp, s, c⟩ := w
  simp only [World.FailsAt] at ho hf
  subst ho
  cases op <;> first | exact hop.elim | skip
  all_goals
    refine ⟨?_, i, ?_, ?_, ?_, ?_⟩ <;> rcases hk with rfl | rfl <;> cases hwp : C.D.wellPosed <;>
    simp [runOp, M.void, getSlabMatrix, getSlabBfi, setupSlabMatrix, M.bind_run, ext, setUpObj, M.attr, M.get, modObj, setVec,
      M.modify, hwp, hf, add_assoc]

/-- C88 fails for the slab matrix and form with `well_posed=True`: if the second assembly, or the allocation of its
vectors, fails, then the repeated request returns, but unless `setup_slab_matrix(False)` is called the matrix-free
product raises `AttributeError` for ever. -/
theorem C88_slab_interrupted (hN : 1 ≤ C.D.N) (hwp : C.D.wellPosed = true) {w₀ : World V} (h₀ : w₀.Fresh) {op : Op V}
    (hop : op.SlabRequest) {k : ℕ} (hk : k = 1 ∨ k = 2) (hs : w₀.FailsAt (1 + k)) (ops : List (Op V))
    (hops : .setupSlab false ∉ ops) :
    (runOp C op (runOps C [.setupFE] w₀)).1 = .error .runtimeError ∧
    (runOp C op (runOps C [.setupFE, op] w₀)).1 = .ok () ∧
    (getSlabMatrix C (runOps C (.setupFE :: op :: ops) w₀)).1 = .ok (some (slabMatOf C true)) ∧
    ∀ (x : InVec) (y : ℕ), (runOp C (.apply x y) (runOps C (.setupFE :: op :: ops) w₀)).1 = .error .attributeError := by
  obtain ⟨h1, h2⟩ := interrupted (C := C) h₀ hop hk hs
  have h3 := h2.ops hwp hops
  have hm : ∀ {w : World V}, HalfBuilt C w → getSlabMatrix C w = (.ok (some (slabMatOf C true)), w) := fun {w} h => by
    unfold getSlabMatrix
    rw [M.bind_ok (M.get_run w)]
    simp [h.mat, M.bind_run, M.get]
  refine ⟨h1, ?_, ?_, fun x y => apply_no_vectors hN h3.dof h3.vecs _ _⟩
  · cases op with
    | getSlabMatrix =>
      change ((getSlabMatrix C).void _).1 = _
      rw [M.void, M.bind_ok (hm h2)]; rfl
    | getSlabBfi =>
      change ((getSlabBfi C).void _).1 = _
      have : getSlabBfi C (runOps C [.setupFE, .getSlabBfi] w₀)
          = (.ok (some (C.D.slabForm true)), runOps C [.setupFE, .getSlabBfi] w₀) := by
        generalize runOps C [.setupFE, .getSlabBfi] w₀ = w at h2
        unfold getSlabBfi
        rw [M.bind_ok (M.get_run w)]
        simp [h2.bfi, M.bind_run, M.get]
      rw [M.void, M.bind_ok this]; rfl
    | _ => exact hop.elim
  · exact congrArg Prod.fst (hm h3)

/-- The undisturbed request makes the product available (after preparation). -/
theorem C88_slab_undisturbed (hC : C.Ok) {w₀ : World V} (h₀ : w₀.Fresh) (hf : w₀.NoFail) (ops : List (Op V)) (x : InVec)
    (y : ℕ) : (runOp C (.apply x y) (runOps C (.setupFE :: .getSlabMatrix :: .prepare :: ops) w₀)).1 = .ok () := by
  have ho := early_slab_matrix (C := C) h₀ hf
  have i := inv_reach (C := C) h₀ [.setupFE, .getSlabMatrix, .prepare]
  have k := keep_reach i ops
  have hr : MfReady C (runOps C (.setupFE :: .getSlabMatrix :: .prepare :: ops) w₀).obj :=
    ⟨k.dofmaps _ (by rw [ho]; rfl), k.slabVecs _ (by rw [ho]),
    k.slabMatNJ _ (by rw [ho]), fun _ => k.coupVecs _ (by rw [ho]; rfl), fun _ => k.coupMat _ (by rw [ho]; rfl)⟩
  have hx : x.ref ∉ mfScratch := by cases x <;> simp [InVec.ref, mfScratch]
  obtain ⟨w', e, -⟩ := apply_run hC hr hx (show Ref.user y ∉ mfScratch by simp [mfScratch])
  exact congrArg Prod.fst e

/-- C88, what does hold (2): with `well_posed=False` preparing repairs the interrupted request. -/
theorem C88_slab_recovers_partial (hC : C.Ok) (hwp : C.D.wellPosed = false) {w₀ : World V} (h₀ : w₀.Fresh) {op : Op V}
    (hop : op.SlabRequest) {k : ℕ} (hk : k = 1 ∨ k = 2) (hs : w₀.FailsAt (1 + k)) (ops : List (Op V)) (x : InVec) (y : ℕ) :
    (runOp C op (runOps C [.setupFE] w₀)).1 = .error .runtimeError ∧
    (runOp C (.apply x y) (runOps C (.setupFE :: op :: .prepare :: ops) w₀)).1 = .ok () := by
  refine ⟨(interrupted (C := C) h₀ hop hk hs).1, ?_⟩
  have hp : MfReady C (runOps C [.setupFE, op, .prepare] w₀).obj := by
    obtain ⟨ho, hf, -⟩ := setupFE_step (C := C) h₀ hs
    have e : runOps C [.setupFE, op, .prepare] w₀ = (prepareGmres C (runOp C op (runOps C [.setupFE] w₀)).2).2 := rfl
    rw [e]
    generalize runOps C [.setupFE] w₀ = w at *
    obtain ⟨o, hp, s, c⟩ := w
    simp only [World.FailsAt] at ho hf
    subst ho
    cases op <;> first | exact hop.elim | skip
    all_goals
      rcases hk with rfl | rfl <;> constructor <;>
      simp [runOp, M.void, getSlabMatrix, getSlabBfi, prepareGmres, setupSlabMatrix, setupCoupling, setupRhs, setupScaledMass,
        M.bind_run, ext, setUpObj, M.attr, M.get, modObj, setVec, M.modify, hwp, hf, add_assoc]
  have k := keep_reach (inv_reach (C := C) h₀ [.setupFE, op, .prepare]) ops
  have hr : MfReady C (runOps C (.setupFE :: op :: .prepare :: ops) w₀).obj :=
    ⟨k.dofmaps _ hp.dofmaps, k.slabVecs _ hp.slabVecs, k.slabMatNJ _ hp.slabMat, fun h => k.coupVecs _ (hp.coupVecs h),
      fun h => k.coupMat _ (hp.coupMat h)⟩
  have hx : x.ref ∉ mfScratch := by cases x <;> simp [InVec.ref, mfScratch]
  obtain ⟨w', e, -⟩ := apply_run hC hr hx (show Ref.user y ∉ mfScratch by simp [mfScratch])
  exact congrArg Prod.fst e

/-- C88, what does hold (3): whatever was called before, a request that failed can be repeated; once nothing fails any
more (and the finite elements are set up) it returns. -/
theorem C88_requests_return {w₀ : World V} (h₀ : w₀.Fresh) (ops : List (Op V)) {op : Op V} (hop : op.Request)
    (hd : (runOps C ops w₀).obj.dofmaps ≠ none) (hf : (runOps C ops w₀).NoFail) :
    (runOp C op (runOps C ops w₀)).1 = .ok () := by
  have i := inv_reach (C := C) h₀ ops
  generalize runOps C ops w₀ = w at *
  obtain ⟨h1, h2⟩ := i.init hd
  obtain ⟨d, hd⟩ := Option.ne_none_iff_exists'.1 hd
  obtain ⟨u, h1⟩ := Option.ne_none_iff_exists'.1 h1
  obtain ⟨v, h2⟩ := Option.ne_none_iff_exists'.1 h2
  have hs : ∀ k, w.sched (w.clock + k) = false := fun k => hf _ (Nat.le_add_right _ _)
  have h0 : w.sched w.clock = false := hs 0
  obtain ⟨o, hp, s, c⟩ := w
  simp only at hd h1 h2 hs h0
  cases op <;> first | exact hop.elim | skip
  case getMatrix p =>
    rcases hr : o.stMat with _ | A <;>
    simp [runOp, M.void, getSpacetimeMatrix, setupSpacetimeMatrix, M.bind_run, ext, h0, M.attr, M.get, modObj, M.modify, hd, hr] <;> rfl
  case getBfi p =>
    rcases hr : o.stBfi with _ | A <;>
    simp [runOp, M.void, getSpacetimeBfi, setupSpacetimeMatrix, M.bind_run, ext, h0, M.attr, M.get, modObj, M.modify, hd, hr] <;> rfl
  case getRhs =>
    rcases hr : o.rhs with _ | A <;>
    simp [runOp, M.void, getSpacetimeRhs, setupRhs, M.bind_run, ext, h0, M.attr, M.get, modObj, setVec, M.modify, hd, h1, h2, hr] <;> rfl
  case getLfi =>
    rcases hr : o.lfi with _ | A <;>
    simp [runOp, M.void, getSpacetimeLfi, setupRhs, M.bind_run, ext, h0, M.attr, M.get, modObj, setVec, M.modify, hd, h1, h2, hr] <;> rfl
  case getSlabMatrix =>
    rcases hr : o.slabMat with _ | A <;> cases hwp : C.D.wellPosed <;>
    simp [runOp, M.void, getSlabMatrix, setupSlabMatrix, M.bind_run, ext, h0, hs, M.attr, M.get, modObj, setVec, M.modify, hd, hr,
      hwp, add_assoc] <;> rfl
  case getSlabBfi =>
    rcases hr : o.slabBfi with _ | A <;> cases hwp : C.D.wellPosed <;>
    simp [runOp, M.void, getSlabBfi, setupSlabMatrix, M.bind_run, ext, h0, hs, M.attr, M.get, modObj, setVec, M.modify, hd, hr,
      hwp, add_assoc] <;> rfl

namespace Example
open Polynomial

/-- A failing request for the matrix, and the request repeated. -/
example (heap : Ref → Vec) : (runOp (cfg true true) (.getMatrix true) (runOps (cfg true true) [.setupFE] (failWorld heap 1))).1
      = .error .runtimeError ∧
    Indistinguishable (cfg true true) (runOps (cfg true true) [.setupFE, .getMatrix true] (failWorld heap 1))
      ((runOps (cfg true true) [.setupFE] (failWorld heap 1)).later 2) ∧
    (runOp (cfg true true) (.getMatrix true)
      (runOps (cfg true true) [.setupFE, .getMatrix true] (failWorld heap 1))).1 = .ok () := by
  have e : runOp (cfg true true) (.getMatrix true) (runOps (cfg true true) [.setupFE] (failWorld heap 1))
      = (.error .runtimeError, (runOps (cfg true true) [.setupFE] (failWorld heap 1)).later 2) := by
    simp [runOps, runOp, M.void, getSpacetimeMatrix, setupSpacetimeMatrix, setupFE, M.bind_run, ext, M.attr, M.get, modObj, setVec,
      M.modify, failWorld, World.later]
  have h := C88_no_trace_partial (op := .getMatrix true) trivial id e
  have e' : runOps (cfg true true) [.setupFE, .getMatrix true] (failWorld heap 1)
      = (runOps (cfg true true) [.setupFE] (failWorld heap 1)).later 2 := congrArg Prod.snd e
  refine ⟨congrArg Prod.fst e, by rw [e']; exact h.2, ?_⟩
  refine C88_requests_return (w₀ := failWorld heap 1) rfl [.setupFE, .getMatrix true] trivial ?_ ?_
  · rw [e']
    simp [runOps, runOp, setupFE, M.bind_run, ext, modObj, setVec, M.modify, failWorld, World.later]
  · rw [e']
    intro j hj
    simp [runOps, runOp, setupFE, M.bind_run, ext, modObj, setVec, M.modify, failWorld, World.later] at hj ⊢
    omega

example (heap : Ref → Vec) := C88_slab_interrupted (C := cfg false true) (by decide) rfl (w₀ := failWorld heap (1 + 2)) rfl
  (op := .getSlabBfi) trivial (.inr rfl) (failWorld_failsAt heap _) [.getSlabMatrix, .prepare, .getRhs] (by simp)
example (heap : Ref → Vec) (ops : List (Op ℝ[X])) := C88_slab_undisturbed (cfg_ok false true) (freshWorld_fresh heap)
  (freshWorld_noFail heap) ops (.user 0) 1
example (heap : Ref → Vec) (ops : List (Op ℝ[X])) := C88_slab_recovers_partial (cfg_ok true false) rfl
  (w₀ := failWorld heap (1 + 1)) rfl (op := .getSlabMatrix) trivial (.inl rfl) (failWorld_failsAt heap _) ops (.user 0) 1

/-- C88 is false: the second assembly of `get_slab_matrix` fails.  Had the request changed nothing, requesting the slab
matrix and preparing would make the product available. -/
theorem C88_violated : ¬ C88_statement ℝ[X] := by
  intro h
  obtain ⟨h1, -, -, h4⟩ := C88_slab_interrupted (C := cfg false true) (by decide) rfl
    (w₀ := failWorld (fun _ => 0) (1 + 1)) rfl (op := .getSlabMatrix) trivial (.inl rfl) (failWorld_failsAt _ _)
    [.getSlabMatrix, .prepare] (by simp)
  have hi := h (cfg false true) (failWorld (fun _ => 0) (1 + 1)) (cfg_ok false true) rfl [.setupFE] .getSlabMatrix trivial _
    (runOp (cfg false true) .getSlabMatrix (runOps (cfg false true) [.setupFE] (failWorld (fun _ => 0) (1 + 1)))).2
    (Prod.ext h1 rfl) [.getSlabMatrix, .prepare]
  have h5 := (hi.1 (.apply (.user 0) 1)).symm.trans (h4 (.user 0) 1)
  have sim : Sim ((runOps (cfg false true) [.setupFE] (failWorld (fun _ => 0) (1 + 1))).later
      (runOp (cfg false true) .getSlabMatrix (runOps (cfg false true) [.setupFE] (failWorld (fun _ => 0) (1 + 1)))).2.clock)
      (runOps (cfg false true) [.setupFE] (freshWorld fun _ => 0)) := by
    refine .of_noFail ?_ ?_ ?_ fun _ _ => ?_
    · simp [runOps, runOp, setupFE, M.bind_run, ext, modObj, setVec, M.modify, failWorld, World.later, freshWorld]
    · simp [runOps, runOp, setupFE, M.bind_run, ext, modObj, setVec, M.modify, failWorld, World.later, freshWorld]
    · intro j hj
      simp [runOps, runOp, M.void, getSlabMatrix, setupSlabMatrix, setupFE, M.bind_run, ext, M.attr, M.get, modObj, setVec,
        M.modify, failWorld, World.later, cfg, disc] at hj ⊢
      omega
    · simp [runOps, runOp, setupFE, M.bind_run, ext, modObj, setVec, M.modify, freshWorld]
  have h6 := (sim.indistinguishable (C := cfg false true) [.getSlabMatrix, .prepare]).1 (.apply (.user 0) 1)
  have h7 := C88_slab_undisturbed (cfg_ok false true) (freshWorld_fresh fun _ => 0) (freshWorld_noFail _) [] (.user 0) 1
  have h8 := h6.trans h7
  rw [h8] at h5
  cases h5

end Example
end Dxss
