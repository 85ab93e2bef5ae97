import Verif.Props.StabDict
import Verif.Lemmas.Setup

/-!
# Changing the stabilisation parameters of an object (C99)

The object keeps the caller's dictionary and looks parameters up when a form is built, and it caches what it has built.  So a
change between two calls is seen by what is built afterwards and not by what was built before.
-/

namespace Dxss
open Finset
set_option linter.unusedSectionVars false
variable {V : Type} [AddCommGroup V] [Module ℝ V] {C : Cfg V} {d d' : StabDict} {a b c e a' b' c' e' : ℝ}

/-- C99, full statement: what an object returns belongs to the parameters its dictionary contains. -/
def C99_statement (V : Type) [AddCommGroup V] [Module ℝ V] : Prop :=
  ∀ C : Cfg V, C.Ok → ∀ (w₀ : World V), w₀.Fresh → w₀.NoFail → ∀ (d₀ : StabDict) (ops : List (DictOp V)) (s : DictWorld V),
    runDictOps C ops ⟨d₀, w₀⟩ = s → ∀ a b c e : ℝ, s.dict.Has a b c e →
      (∀ A, (Dict.getSlabMatrix C s.dict s.world).1 = .ok (some A) → A = slabMatOf (C.withStabs a b c e) true) ∧
      (∀ p A, (Dict.getSpacetimeMatrix C s.dict p s.world).1 = .ok A → ∃ p', A = stMatOf (C.withStabs a b c e) p')

/-! ## Changes made before anything is built are honoured -/

/-- The calls among the steps. -/
def DictOp.calls : List (DictOp V) → List (Op V)
  | [] => []
  | .call op :: l => op :: calls l
  | _ :: l => calls l

theorem runDictOps_append (l l' : List (DictOp V)) (s : DictWorld V) :
    runDictOps C (l ++ l') s = runDictOps C l' (runDictOps C l s) := List.foldl_append

theorem before_build (l : List (DictOp V)) (h : ∀ op ∈ DictOp.calls l, ¬ op.BuildsForm) (s : DictWorld V) :
    (runDictOps C l s).world = runOps (C.withStabs a b c e) (DictOp.calls l) s.world := by
  induction l generalizing s with
  | nil => rfl
  | cons x l ih =>
    cases x with
    | call op =>
      have h1 : ¬ op.BuildsForm := h op (by simp [DictOp.calls])
      change (runDictOps C l { s with world := (Dict.runOp C s.dict op s.world).2 }).world =
        runOps _ (DictOp.calls l) (runOp (C.withStabs a b c e) op s.world).2
      rw [ih fun op' h' => h op' (by simp [DictOp.calls, h']), Dict.runOp_other op h1, runOp_withStabs op h1]
    | assign k x => exact ih h _
    | del k => exact ih h _

theorem after_build (h : d.Has a b c e) (l : List (Op V)) (w : World V) :
    (runDictOps C (l.map .call) ⟨d, w⟩) = ⟨d, runOps (C.withStabs a b c e) l w⟩ := by
  induction l generalizing w with
  | nil => rfl
  | cons op l ih =>
    change runDictOps C (l.map .call) ⟨d, (Dict.runOp C d op w).2⟩ = _
    rw [ih, C98_complete h op]
    rfl

/-- C99: when the dictionary is only changed before the first call that builds a form, the object behaves as if it had been constructed
with the final parameters.  (`_partial`: later changes are excluded.) -/
theorem C99_settled_partial (l : List (DictOp V)) (h : ∀ op ∈ DictOp.calls l, ¬ op.BuildsForm) (s : DictWorld V)
    (hd : (runDictOps C l s).dict.Has a b c e) (ops : List (Op V)) :
    (runDictOps C (l ++ ops.map .call) s).world = runOps (C.withStabs a b c e) (DictOp.calls l ++ ops) s.world := by
  rw [runDictOps_append]
  have h1 := before_build (C := C) (a := a) (b := b) (c := c) (e := e) l h s
  have h2 : runDictOps C l s = ⟨(runDictOps C l s).dict, (runDictOps C l s).world⟩ := rfl
  rw [h2, after_build hd, h1]
  exact (List.foldl_append (l := DictOp.calls l)).symm

theorem dict_kept (l : List (DictOp V)) (key : String) (h : ∀ x, .assign key x ∉ l) (s : DictWorld V) (hs : s.dict key = none) :
    (runDictOps C l s).dict key = none := by
  induction l generalizing s with
  | nil => exact hs
  | cons x l ih =>
    refine ih (fun y hy => h y (List.mem_cons_of_mem _ hy)) _ ?_
    cases x with
    | call op => exact hs
    | assign k x =>
      have hk : key ≠ k := by
        rintro rfl
        exact h x (by simp)
      simpa [DictOp.step, Function.update_of_ne hk] using hs
    | del k =>
      by_cases hk : key = k
      · subst hk
        simp [DictOp.step]
      · simpa [DictOp.step, Function.update_of_ne hk] using hs

/-- C99: the removal of a parameter is noticed.  Until it is assigned again every call that looks it up raises `KeyError`, when nothing
else fails. -/
theorem C99_removed (l : List (DictOp V)) (key : String) (h : ∀ x, .assign key x ∉ l) {s t : DictWorld V}
    (ht : runDictOps C (.del key :: l) s = t) (hs : t.world.NoFail) (hd : t.world.obj.dofmaps ≠ none) (op : Op V)
    (hk : key ∈ op.reads C t.world.obj) : (Dict.runOp C t.dict op t.world).1 = .error .keyError := by
  refine C98_missing_reported hs op hd hk ?_
  rw [← ht]
  exact dict_kept l key h _ (by simp [DictOp.step])

/-! ## Explicit set-up calls use the current parameters -/

theorem slab_stored (j : Bool) (w : World V) (h : (setupSlabMatrix C j w).1 = .ok ()) :
    (j = true → (setupSlabMatrix C j w).2.obj.slabMat = some (slabMatOf C true)) ∧
    (j = false → (setupSlabMatrix C j w).2.obj.slabMatNJ = some (slabMatOf C false)) ∧
    (j = C.D.wellPosed → (setupSlabMatrix C j w).2.obj.firstMat = some (slabMatOf C j)) := by
  obtain ⟨o, hp, s, k⟩ := w
  unfold setupSlabMatrix at h ⊢
  cases hd : o.dofmaps with
  | none => simp [M.bind_run, M.attr, hd] at h
  | some x =>
    cases h0 : s k with
    | true => simp [M.bind_run, M.attr, hd, ext, h0] at h
    | false =>
      cases j <;> cases hwp : C.D.wellPosed <;> cases h1 : s (k + 1) <;>
        simp [M.bind_run, M.attr, hd, ext, h0, modObj, M.modify, setVec, hwp, h1] at h ⊢

/-- C99: a successful explicit set-up stores the operator of the current parameters, whatever was stored before. -/
theorem C99_refresh_partial (h : d.Has a b c e) (w : World V) :
    (∀ j, (Dict.runOp C d (.setupSlab j) w).1 = .ok () →
      (j = true → (Dict.runOp C d (.setupSlab j) w).2.obj.slabMat = some (slabMatOf (C.withStabs a b c e) true)) ∧
      (j = false → (Dict.runOp C d (.setupSlab j) w).2.obj.slabMatNJ = some (slabMatOf (C.withStabs a b c e) false)) ∧
      (j = C.D.wellPosed → (Dict.runOp C d (.setupSlab j) w).2.obj.firstMat = some (slabMatOf (C.withStabs a b c e) j))) ∧
    ((Dict.runOp C d .setupCoupling w).1 = .ok () →
      (Dict.runOp C d .setupCoupling w).2.obj.coupMat = some (coupMatOf (C.withStabs a b c e))) ∧
    ((Dict.runOp C d .setupScaledMass w).1 = .ok () →
      (Dict.runOp C d .setupScaledMass w).2.obj.bndMat = some (bndMatOf (C.withStabs a b c e))) ∧
    ((Dict.runOp C d .setupRhs w).1 = .ok () → ∃ u v, w.obj.u10 = some u ∧ w.obj.u20 = some v ∧
      (Dict.runOp C d .setupRhs w).2.heap .rhs = rhsVecOf (C.withStabs a b c e) u v) := by
  simp only [C98_complete h]
  refine ⟨fun j hj => slab_stored j w hj, ?_, ?_, fun hr => ?_⟩
  · obtain ⟨o, hp, s, k⟩ := w
    simp only [runOp, setupCoupling]
    cases hd : o.dofmaps with
    | none => simp [M.bind_run, M.attr, hd]
    | some x =>
      cases h0 : s k <;> cases h1 : s (k + 1) <;> simp [M.bind_run, M.attr, hd, ext, h0, h1, modObj, M.modify, setVec]
  · obtain ⟨o, hp, s, k⟩ := w
    simp only [runOp, setupScaledMass]
    cases hd : o.dofmaps with
    | none => simp [M.bind_run, M.attr, hd]
    | some x =>
      cases h0 : s k <;> cases h1 : s (k + 1) <;> simp [M.bind_run, M.attr, hd, ext, h0, h1, modObj, M.modify, setVec]
  · rcases setupRhs_cases (C := C.withStabs a b c e) w with ⟨⟨x, hx⟩, -⟩ | ⟨u, v, h1, h2, -, -, he⟩
    · change (setupRhs (C.withStabs a b c e) w).1 = _ at hr
      rw [hr] at hx; cases hx
    · refine ⟨u, v, h1, h2, ?_⟩
      change (setupRhs (C.withStabs a b c e) w).2.heap .rhs = _
      rw [he]
      exact Function.update_self Ref.rhs _ w.heap

/-! ## Where cached operators come from -/

/-- The configuration with the parameters in the dictionary (the value of a missing one is irrelevant). -/
noncomputable def Cfg.ofDict (C : Cfg V) (d : StabDict) : Cfg V :=
  C.withStabs ((d "data").getD 0) ((d "dual").getD 0) ((d "primal").getD 0) ((d "primal-jump").getD 0)

theorem ofDict_has (h : d.Has a b c e) : C.ofDict d = C.withStabs a b c e := by
  simp [Cfg.ofDict, h.data, h.dual, h.primal, h.jump]

/-- Every operator the object holds was built with parameters from `P`. -/
structure Prov (C : Cfg V) (P : StabDict → Prop) (o : Obj V) : Prop where
  stMat : ∀ A, o.stMat = some A → ∃ d, P d ∧ ∃ p, A = stMatOf (C.ofDict d) p
  slabMat : ∀ A, o.slabMat = some A → ∃ d, P d ∧ A = slabMatOf (C.ofDict d) true
  slabMatNJ : ∀ A, o.slabMatNJ = some A → ∃ d, P d ∧ A = slabMatOf (C.ofDict d) false
  firstMat : ∀ A, o.firstMat = some A → ∃ d, P d ∧ A = slabMatOf (C.ofDict d) C.D.wellPosed
  coupMat : ∀ A, o.coupMat = some A → ∃ d, P d ∧ A = coupMatOf (C.ofDict d)
  bndMat : ∀ A, o.bndMat = some A → ∃ d, P d ∧ A = bndMatOf (C.ofDict d)
  coarseMat : ∀ A, o.coarseMat = some A → ∃ d, P d ∧ ∃ K, A = coarseMatOf (C.ofDict d) K
  lfi : ∀ L, o.lfi = some L → ∃ d, P d ∧ ∃ u v, L = (C.ofDict d).D.rhsForm C.S C.pts C.ws u v

theorem Prov.mono {P Q : StabDict → Prop} (h : ∀ d, P d → Q d) {o : Obj V} (p : Prov C P o) : Prov C Q o where
  stMat A hA := let ⟨d, hd, r⟩ := p.stMat A hA; ⟨d, h d hd, r⟩
  slabMat A hA := let ⟨d, hd, r⟩ := p.slabMat A hA; ⟨d, h d hd, r⟩
  slabMatNJ A hA := let ⟨d, hd, r⟩ := p.slabMatNJ A hA; ⟨d, h d hd, r⟩
  firstMat A hA := let ⟨d, hd, r⟩ := p.firstMat A hA; ⟨d, h d hd, r⟩
  coupMat A hA := let ⟨d, hd, r⟩ := p.coupMat A hA; ⟨d, h d hd, r⟩
  bndMat A hA := let ⟨d, hd, r⟩ := p.bndMat A hA; ⟨d, h d hd, r⟩
  coarseMat A hA := let ⟨d, hd, r⟩ := p.coarseMat A hA; ⟨d, h d hd, r⟩
  lfi A hA := let ⟨d, hd, r⟩ := p.lfi A hA; ⟨d, h d hd, r⟩

/-- The step keeps `Prov`. -/
def Rel.prov (C : Cfg V) (P : StabDict → Prop) : Rel (World V) where
  r w w' := Prov C P w.obj → Prov C P w'.obj
  refl _ h := h
  trans h h' i := h' (h i)

variable {P : StabDict → Prop}

theorem prov_ext : Pres (Rel.prov C P) ext := fun _ h => h
theorem prov_setVec (r : Ref) (v : Vec) : Pres (Rel.prov C P) (setVec r v) := fun _ h => h
theorem prov_mod {f : Obj V → Obj V} (h : ∀ o, Prov C P o → Prov C P (f o)) : Pres (Rel.prov C P) (modObj f) := fun _ => h _

/-- The attributes `Prov` speaks about. -/
def Obj.ops (o : Obj V) := (o.stMat, o.slabMat, o.slabMatNJ, o.firstMat, o.coupMat, o.bndMat, o.coarseMat, o.lfi)

theorem prov_of_frame {β : Type} {x : WM V β} (h : Pres (Rel.frame Obj.ops) x) : Pres (Rel.prov C P) x := by
  intro w i
  have := h w
  simp only [Rel.frame, Obj.ops, Prod.mk.injEq] at this
  obtain ⟨h1, h2, h3, h4, h5, h6, h7, h8⟩ := this
  exact ⟨h1 ▸ i.stMat, h2 ▸ i.slabMat, h3 ▸ i.slabMatNJ, h4 ▸ i.firstMat, h5 ▸ i.coupMat, h6 ▸ i.bndMat, h7 ▸ i.coarseMat, h8 ▸ i.lfi⟩

theorem prov_other (op : Op V) (h : ¬ op.BuildsForm) : Pres (Rel.prov C P) (runOp C op) := by
  refine prov_of_frame ?_
  op_frame_tac op h

/-- Decompose a computation; what is left are the steps that store an operator. -/
macro "prov_tac" : tactic => `(tactic| repeat' (first
  | with_reducible exact prov_ext
  | with_reducible exact prov_setVec _ _
  | exact prov_mod fun _ i => { i with }
  | with_reducible exact Pres.attr _ _
  | with_reducible exact Pres.pure _
  | with_reducible exact Pres.get
  | with_reducible exact Pres.raise _
  | with_reducible refine Pres.bind ?_ ?_
  | with_reducible refine Pres.forList ?_
  | with_reducible intro _))

/-- Binding a look-up: afterwards the value is the entry. -/
theorem prov_look {β : Type} {R : Rel (World V)} {key : String} {k : ℝ → WM V β} (h : ∀ x, d key = some x → Pres R (k x)) :
    Pres R (M.lift (d.look key) >>= k) := by
  unfold StabDict.look
  cases hx : d key with
  | none => exact .raise _
  | some x => exact h x hx

theorem prov_coupling (hP : P d) : Pres (Rel.prov C P) (Dict.setupCoupling C d) := by
  unfold Dict.setupCoupling
  refine .bind (.attr _ _) fun _ => prov_look fun x hx => ?_
  unfold Dxss.setupCoupling
  prov_tac
  exact prov_mod fun o i => { i with coupMat := fun A hA => ⟨d, hP, by cases hA; simp [Cfg.ofDict, hx]; rfl⟩ }

theorem prov_scaledMass (hP : P d) : Pres (Rel.prov C P) (Dict.setupScaledMass C d) := by
  unfold Dict.setupScaledMass
  refine .bind (.attr _ _) fun _ => prov_look fun x hx => ?_
  unfold Dxss.setupScaledMass
  prov_tac
  exact prov_mod fun o i => { i with bndMat := fun A hA => ⟨d, hP, by cases hA; simp [Cfg.ofDict, hx]; rfl⟩ }

theorem prov_rhs (hP : P d) : Pres (Rel.prov C P) (Dict.setupRhs C d) := by
  unfold Dict.setupRhs
  refine .bind (.attr _ _) fun _ => prov_look fun x hx => prov_look fun y hy => ?_
  unfold Dxss.setupRhs
  prov_tac
  exact prov_mod fun o i => { i with lfi := fun A hA => ⟨d, hP, _, _, by cases hA; simp [Cfg.ofDict, hx, hy]; rfl⟩ }

theorem prov_slab (hP : P d) (j : Bool) : Pres (Rel.prov C P) (Dict.setupSlabMatrix C d j) := by
  unfold Dict.setupSlabMatrix
  refine .bind (.attr _ _) fun _ => prov_look fun x hx => prov_look fun y hy => prov_look fun z hz => prov_look fun t ht => ?_
  have hC : C.withStabs x y z t = C.ofDict d := by simp [Cfg.ofDict, hx, hy, hz, ht]
  rw [hC]
  unfold Dxss.setupSlabMatrix
  have hw : (C.ofDict d).D.wellPosed = C.D.wellPosed := rfl
  cases j
  · simp only [Bool.false_eq_true, if_false]
    prov_tac
    · exact prov_mod fun o i => { i with slabMatNJ := fun A hA => ⟨d, hP, by cases hA; rfl⟩ }
    · split
      · rename_i h
        have hf : C.D.wellPosed = false := by rw [← hw]; simpa using h
        prov_tac
        exact prov_mod fun o i => { i with firstMat := fun A hA => ⟨d, hP, by cases hA; rw [hf]⟩ }
      · exact .pure _
  · simp only [if_true]
    prov_tac
    · exact prov_mod fun o i => { i with slabMat := fun A hA => ⟨d, hP, by cases hA; rfl⟩ }
    · split
      · rename_i h
        have hf : C.D.wellPosed = true := by rw [← hw]; simpa using h
        prov_tac
        exact prov_mod fun o i => { i with firstMat := fun A hA => ⟨d, hP, by cases hA; rw [hf]⟩ }
      · exact .pure _

theorem prov_getMatrix (hP : P d) (p : Bool) : Pres (Rel.prov C P) (Dict.getSpacetimeMatrix C d p) := by
  unfold Dict.getSpacetimeMatrix Dict.setupSpacetimeMatrix Dxss.setupSpacetimeMatrix
  refine .bind .get fun w => ?_
  split
  · exact .pure _
  simp only [bind_assoc, pure_bind]
  refine .bind (.attr _ _) fun _ => prov_look fun x hx => prov_look fun y hy => prov_look fun z hz => prov_look fun t ht => ?_
  have hC : C.withStabs x y z t = C.ofDict d := by simp [Cfg.ofDict, hx, hy, hz, ht]
  rw [hC]
  prov_tac
  exact prov_mod fun o i => { i with stMat := fun A hA => ⟨d, hP, p, by cases hA; rfl⟩ }

theorem prov_getBfi (hP : P d) (p : Bool) : Pres (Rel.prov C P) (Dict.getSpacetimeBfi C d p) := by
  unfold Dict.getSpacetimeBfi Dict.setupSpacetimeMatrix Dxss.setupSpacetimeMatrix
  refine .bind .get fun w => ?_
  split
  · exact .pure _
  simp only [bind_assoc, pure_bind]
  refine .bind (.attr _ _) fun _ => prov_look fun x hx => prov_look fun y hy => prov_look fun z hz => prov_look fun t ht => ?_
  have hC : C.withStabs x y z t = C.ofDict d := by simp [Cfg.ofDict, hx, hy, hz, ht]
  rw [hC]
  prov_tac
  exact prov_mod fun o i => { i with stMat := fun A hA => ⟨d, hP, p, by cases hA; rfl⟩ }

theorem prov_coarse (hP : P d) (K : CoarseMesh V) : Pres (Rel.prov C P) (Dict.prepareCoarse C d K) := by
  unfold Dict.prepareCoarse
  refine .bind prov_ext fun _ => .bind (prov_mod fun o i => { i with }) fun _ => .bind (.attr _ _) fun _ =>
    .bind (prov_mod fun o i => { i with }) fun _ => .bind (prov_setVec _ _) fun _ => .bind (prov_setVec _ _) fun _ =>
    prov_look fun x hx => prov_look fun y hy => prov_look fun z hz => prov_look fun t ht => ?_
  have hC : C.withStabs x y z t = C.ofDict d := by simp [Cfg.ofDict, hx, hy, hz, ht]
  rw [hC]
  prov_tac
  exact prov_mod fun o i => { i with coarseMat := fun A hA => ⟨d, hP, K, by cases hA; rfl⟩ }

theorem prov_unless {q : World V → Bool} {x : WM V Unit} {k : WM V Unit} (hx : Pres (Rel.prov C P) x) (hk : Pres (Rel.prov C P) k) :
    Pres (Rel.prov C P) (do
      let w ← M.get
      if q w then x
      k) := by
  refine .bind .get fun w => ?_
  split
  · exact .bind hx fun _ => hk
  · exact hk

theorem prov_prepare (hP : P d) : Pres (Rel.prov C P) (Dict.prepareGmres C d) := by
  unfold Dict.prepareGmres
  refine .bind .get fun w => ?_
  have k : Pres (Rel.prov C P) (do
      let w ← M.get
      if w.obj.firstMat.isNone && !C.D.wellPosed then Dict.setupSlabMatrix C d false
      let w ← M.get
      if w.obj.coupMat.isNone then Dict.setupCoupling C d
      let w ← M.get
      if w.obj.rhs.isNone then Dict.setupRhs C d
      let w ← M.get
      if w.obj.bndMat.isNone then Dict.setupScaledMass C d : WM V Unit) :=
    prov_unless (prov_slab hP _) (prov_unless (prov_coupling hP) (prov_unless (prov_rhs hP)
      (.bind .get fun _ => .ite (prov_scaledMass hP) (.pure _))))
  split
  · exact .bind (prov_slab hP _) fun _ => .bind prov_ext fun _ => .bind (prov_mod fun o i => { i with }) fun _ =>
      .bind (prov_setVec _ _) fun _ => k
  · exact k

theorem prov_op (hP : P d) (op : Op V) : Pres (Rel.prov C P) (Dict.runOp C d op) := by
  cases op with
  | getMatrix p => exact .void (prov_getMatrix hP p)
  | getBfi p => exact .void (prov_getBfi hP p)
  | getRhs => exact .void (.bind .get fun _ => by split; exacts [.bind (prov_rhs hP) fun _ => .pure _, .pure _])
  | getLfi => exact .void (.bind .get fun _ => by split; exacts [.bind (prov_rhs hP) fun _ => .attr _ _, .attr _ _])
  | getSlabBfi =>
    exact .void (.bind .get fun _ => by
      split
      exacts [.bind (prov_slab hP _) fun _ => .bind (prov_slab hP _) fun _ => .bind .get fun _ => .pure _, .bind .get fun _ => .pure _])
  | getSlabMatrix =>
    exact .void (.bind .get fun _ => by
      split
      exacts [.bind (prov_slab hP _) fun _ => .bind (prov_slab hP _) fun _ => .bind .get fun _ => .pure _, .bind .get fun _ => .pure _])
  | prepare => exact prov_prepare hP
  | pre x y =>
    exact prov_look fun t _ => prov_of_frame (frame_of_touch (A := Set.univ) (touch_pre _ (by simp) (by simp)))
  | preImproved x y =>
    simp only [Dict.runOp, Dict.preTimeMarchingImproved]
    have k := prov_of_frame (C := C) (P := P)
      (frame_of_touch (A := Set.univ) (touch_preImproved C (b := x.ref) (x := .user y) (by simp) (by simp)))
    split
    · exact .bind (.raise _) fun _ => prov_look fun _ _ => k
    · exact prov_look fun _ _ => k
  | prepareCoarse K => exact prov_coarse hP K
  | setupSlab j => exact prov_slab hP j
  | setupCoupling => exact prov_coupling hP
  | setupScaledMass => exact prov_scaledMass hP
  | setupRhs => exact prov_rhs hP
  | setupMatrix p =>
    refine .void ?_
    unfold Dict.setupSpacetimeMatrix Dxss.setupSpacetimeMatrix
    refine .bind (.attr _ _) fun _ => prov_look fun x hx => prov_look fun y hy => prov_look fun z hz => prov_look fun t ht => ?_
    prov_tac
  | _ => exact prov_other _ id

theorem prov_ops (l : List (DictOp V)) (s : DictWorld V) (h : Prov C P s.world.obj)
    (hP : ∀ l₁ l₂, l₁ ++ l₂ = l → P (runDictOps C l₁ s).dict) : Prov C P (runDictOps C l s).world.obj := by
  induction l generalizing s with
  | nil => exact h
  | cons x l ih =>
    refine ih (x.step C s) ?_ fun l₁ l₂ hl => hP (x :: l₁) l₂ (by rw [← hl]; rfl)
    cases x with
    | call op => exact prov_op (hP [] (.call op :: l) rfl) op s.world h
    | assign k y => exact h
    | del k => exact h

/-- C99: every operator the object holds was built with the parameters the dictionary contained at some moment of the history.
(`_partial`: not necessarily the current ones, and not necessarily the same moment for all of them.) -/
theorem C99_provenance_partial (l : List (DictOp V)) (d₀ : StabDict) {w₀ : World V} (h : w₀.Fresh) :
    Prov C (fun d => ∃ l₁ l₂, l₁ ++ l₂ = l ∧ d = (runDictOps C l₁ ⟨d₀, w₀⟩).dict) (runDictOps C l ⟨d₀, w₀⟩).world.obj := by
  refine prov_ops l _ ?_ fun l₁ l₂ hl => ⟨l₁, l₂, hl, rfl⟩
  rw [World.Fresh] at h
  simp only [h]
  constructor <;> intro A hA <;> cases hA

/-- C99: without any change of the dictionary all operators belong to its parameters, also when calls fail. -/
theorem C99_unchanged_partial (ops : List (Op V)) (hd : d.Has a b c e) {w₀ : World V} (h : w₀.Fresh) :
    Prov C (fun d' => d' = d) (runDictOps C (ops.map .call) ⟨d, w₀⟩).world.obj :=
  (C99_provenance_partial (C := C) (ops.map .call) d h).mono fun d' ⟨l₁, l₂, hl, hd'⟩ => by
    obtain ⟨l₁', l₂', rfl, rfl, -⟩ := List.map_eq_append_iff.1 hl.symm
    rw [hd', after_build hd]

/-! ## A change after the slab matrix was built -/

theorem mixed_run {C₁ C₂ : Cfg V} (hw : C₁.D.wellPosed = C₂.D.wellPosed) {w : World V} {u v : V}
    (h : w.obj = setUpObj C u v) (hs : w.NoFail) :
    ∃ w₁ w₂, getSlabMatrix C₁ w = (.ok (some (slabMatOf C₁ true)), w₁) ∧ prepareGmres C₂ w₁ = (.ok (), w₂) ∧
      w₂.obj.slabMat = some (slabMatOf C₁ true) ∧ w₂.obj.slabMatNJ = some (slabMatOf C₁ false) ∧
      w₂.obj.firstMat = some (slabMatOf C₁ C₁.D.wellPosed) ∧ w₂.obj.coupMat = some (coupMatOf C₂) ∧
      w₂.obj.bndMat = some (bndMatOf C₂) ∧ w₂.heap .rhs = rhsVecOf C₂ u v := by
  obtain ⟨o, hp, s, c⟩ := w
  simp only at h
  subst h
  have h' : ∀ k, s (c + k) = false := fun k => hs _ (Nat.le_add_right _ _)
  have h0 : s c = false := h' 0
  refine ⟨_, _, Prod.ext ?_ rfl, Prod.ext ?_ rfl, ?_⟩ <;> cases hwp : C₁.D.wellPosed <;> rw [hwp] at hw <;> have hw := hw.symm <;>
  simp [map_get_run, getSlabMatrix, prepareGmres, setupSlabMatrix, setupCoupling, setupRhs, setupScaledMass, M.bind_run, ext,
    h', h0, setUpObj, hwp, hw, M.attr, M.get, modObj, setVec, M.modify, add_assoc]

/-- C99: the slab matrix is requested, the dictionary is changed, the preparation follows: the slab matrices (also the one used for the
product with the space-time matrix) belong to the old parameters, the interface matrices and the right-hand side to the new ones.
No error is raised. -/
theorem C99_mixed {w₀ : World V} (h₀ : w₀.Fresh) (hf : w₀.NoFail) (hd : d.Has a b c e) (l : List (DictOp V))
    (hl : DictOp.calls l = []) (hd' : (runDictOps C l ⟨d, w₀⟩).dict.Has a' b' c' e') :
    ∃ w, runDictOps C ([.call .setupFE, .call .getSlabMatrix] ++ l ++ [.call .prepare]) ⟨d, w₀⟩ =
        ⟨(runDictOps C l ⟨d, w₀⟩).dict, w⟩ ∧
      w.obj.slabMat = some (slabMatOf (C.withStabs a b c e) true) ∧
      w.obj.slabMatNJ = some (slabMatOf (C.withStabs a b c e) false) ∧
      w.obj.firstMat = some (slabMatOf (C.withStabs a b c e) C.D.wellPosed) ∧
      w.obj.coupMat = some (coupMatOf (C.withStabs a' b' c' e')) ∧
      w.obj.bndMat = some (bndMatOf (C.withStabs a' b' c' e')) ∧
      w.heap .rhs = rhsVecOf (C.withStabs a' b' c' e') 0 0 := by
  have hworld : ∀ (l : List (DictOp V)), DictOp.calls l = [] → ∀ (d : StabDict) (w w' : World V),
      runDictOps C l ⟨d, w⟩ = ⟨(runDictOps C l ⟨d, w'⟩).dict, w⟩ := by
    intro l
    induction l with
    | nil => intro _ d w w'; rfl
    | cons x l ih =>
      intro hl d w w'
      cases x with
      | call op => simp [DictOp.calls] at hl
      | assign k y => exact ih hl _ w w'
      | del k => exact ih hl _ w w'
  have k := (hist_op (C := C) (b := false) .setupFE (fun h => by cases h) w₀ (Inv.of_fresh h₀)).2
  obtain ⟨w₁, w₂, e1, e2, r⟩ := mixed_run (C := C) (C₁ := C.withStabs a b c e) (C₂ := C.withStabs a' b' c' e') rfl
    (setupFE_fresh (C := C) h₀ hf).2 (NoFail.of_keep hf k)
  refine ⟨w₂, ?_, r⟩
  have g1 : runDictOps C [.call .setupFE, .call .getSlabMatrix] ⟨d, w₀⟩ = ⟨d, w₁⟩ := by
    have := after_build (C := C) hd [.setupFE, .getSlabMatrix] w₀
    refine this.trans ?_
    change DictWorld.mk d ((getSlabMatrix (C.withStabs a b c e)).void (setupFE C w₀).2).2 = _
    unfold M.void
    rw [M.bind_ok e1]
    rfl
  rw [runDictOps_append, runDictOps_append, g1, hworld l hl d w₁ w₀]
  have := after_build (C := C) hd' [.prepare] w₁
  refine this.trans ?_
  change DictWorld.mk _ (prepareGmres (C.withStabs a' b' c' e') w₁).2 = _
  rw [e2]

theorem FSpace.Ok.unit_field {L : FSpace} {fe : FE V} (h : L.Ok fe.m) {c : Fin 4} {i s : ℕ} (hi : i < L.nsub c) (hs : s < fe.m c)
    (c' : Fin 4) (i' : ℤ) :
    L.field fe (unitVec (L.dof c i s)) c' i' = if c' = c ∧ i' = i then fe.basis c s else 0 := by
  simp only [FSpace.field]
  by_cases hh : c' = c ∧ i' = i
  · obtain ⟨rfl, rfl⟩ := hh
    rw [if_pos ⟨by positivity, by exact_mod_cast hi⟩, if_pos ⟨rfl, rfl⟩, sum_eq_single s]
    · simp [unitVec]
    · intro s' hs' hne
      simp only [unitVec, Int.toNat_natCast]
      rw [if_neg, zero_smul]
      intro he
      exact hne (h.inj _ _ _ _ _ _ hi (mem_range.1 hs') hi hs he).2.2
    · intro h; exact absurd (mem_range.2 hs) h
  · rw [if_neg hh]
    split
    · rename_i hi'
      refine sum_eq_zero fun s' hs' => ?_
      simp only [unitVec]
      rw [if_neg, zero_smul]
      intro he
      obtain ⟨h1, h2, -⟩ := h.inj _ _ _ _ _ _ (by omega) (mem_range.1 hs') hi hs he
      exact hh ⟨h1, by omega⟩
    · rfl

/-- Slab matrices for different jump parameters differ. -/
theorem slab_jump_ne (hC : C.Ok) {s : ℕ} (hs : s < C.fe.mP) (hm : C.S.mass (C.fe.bP s) (C.fe.bP s) ≠ 0) (he : e ≠ e') :
    slabMatOf (C.withStabs a b c e) true ≠ slabMatOf (C.withStabs a b c e') true := by
  intro h
  have h1 := congrFun (congrFun (congrArg Mat.a h) (C.slab.dof 1 0 s)) (C.slab.dof 1 0 s)
  have hlt : C.slab.dof 1 0 s < C.slab.size := hC.slab.lt 1 0 s (by rw [hC.slabN]; simp [slabSizes]) hs
  have hu := fun c' i' => hC.slab.unit_field (c := 1) (i := 0) (s := s) (by rw [hC.slabN]; simp [slabSizes]) hs c' i'
  simp only [slabMatOf, assemble] at h1
  change (if _ < C.slab.size then _ else _) = (if _ < C.slab.size then _ else _) at h1
  rw [if_pos hlt, if_pos hlt] at h1
  change evalForm C.S C.D.ind _ _ _ = evalForm C.S C.D.ind _ _ _ at h1
  have hsplit : ∃ R : ℝ, ∀ g : ℝ, evalForm C.S C.D.ind ((C.withStabs a b c g).D.slabForm true)
      (C.slab.field C.fe (unitVec (C.slab.dof 1 0 s))) (C.slab.field C.fe (unitVec (C.slab.dof 1 0 s))) =
      R + evalForm C.S C.D.ind ((C.withStabs a b c g).D.slabJump true) (C.slab.field C.fe (unitVec (C.slab.dof 1 0 s)))
        (C.slab.field C.fe (unitVec (C.slab.dof 1 0 s))) := by
    let D := (C.withStabs a b c 0).D
    refine ⟨evalForm C.S C.D.ind (⟨1e-20, .mass, at_ 0 0, at_ 2 0⟩ ::
      (D.slabWave ++ D.slabData ++ D.slabAdj ++ D.slabDual ++ D.slabDualJump true ++ D.slabPrimal))
      (C.slab.field C.fe (unitVec (C.slab.dof 1 0 s))) (C.slab.field C.fe (unitVec (C.slab.dof 1 0 s))), fun g => ?_⟩
    rw [← evalForm_append]
    rfl
  obtain ⟨R, hR⟩ := hsplit
  have h2 := add_left_cancel ((hR e).symm.trans (Eq.trans h1 (hR e')))
  have hj : ∀ g : ℝ, evalForm C.S C.D.ind ((C.withStabs a b c g).D.slabJump true) (C.slab.field C.fe (unitVec (C.slab.dof 1 0 s)))
      (C.slab.field C.fe (unitVec (C.slab.dof 1 0 s))) = g * (1 / C.D.dt) * C.S.mass (C.fe.bP s) (C.fe.bP s) := by
    intro g
    have z : ∀ (c' : Fin 4), c' ≠ 1 → C.slab.field C.fe (unitVec (C.slab.dof 1 0 s)) c' 0 = 0 := fun c' h => by
      rw [hu]; simp [h]
    have o : C.slab.field C.fe (unitVec (C.slab.dof 1 0 s)) 1 0 = C.fe.bP s := by
      rw [hu]; simp [FE.basis]
    have zz := z 0 (by decide)
    have z2 := z 2 (by decide)
    have z3 := z 3 (by decide)
    by_cases hf : C.D.jumpsFw = true <;>
      simp [Disc.slabJump, Cfg.withStabs, hf, evalForm, Term.eval, SOp.eval, Operand.eval, at_, zz, z2, z3, o]
  have h3 := (hj e).symm.trans (Eq.trans h2 (hj e'))
  have h4 := mul_right_cancel₀ hm h3
  exact he (mul_right_cancel₀ (one_div_ne_zero hC.disc.dt_ne) h4)

/-- C99: so a new jump parameter is not honoured by the slab matrix, for every configuration. -/
theorem C99_stale (hC : C.Ok) {s : ℕ} (hs : s < C.fe.mP) (hm : C.S.mass (C.fe.bP s) (C.fe.bP s) ≠ 0) {w₀ : World V}
    (h₀ : w₀.Fresh) (hf : w₀.NoFail) (hd : d.Has a b c e) (he : e' ≠ e) :
    ∃ st : DictWorld V, runDictOps C [.call .setupFE, .call .getSlabMatrix, .assign "primal-jump" e', .call .prepare] ⟨d, w₀⟩ = st ∧
      st.dict.Has a b c e' ∧ ∃ A, (Dict.getSlabMatrix C st.dict st.world).1 = .ok (some A) ∧
        A = slabMatOf (C.withStabs a b c e) true ∧ A ≠ slabMatOf (C.withStabs a b c e') true := by
  have hd' : (runDictOps C [DictOp.assign (V := V) "primal-jump" e'] ⟨d, w₀⟩).dict.Has a b c e' := by
    constructor <;> simp [runDictOps, DictOp.step, hd.data, hd.dual, hd.primal, Function.update_apply]
  obtain ⟨w, hw, h1, -⟩ := C99_mixed (C := C) h₀ hf hd [.assign "primal-jump" e'] rfl hd'
  refine ⟨_, rfl, ?_, slabMatOf (C.withStabs a b c e) true, ?_, rfl, slab_jump_ne hC hs hm he.symm⟩
  · refine Eq.mp (congrArg (fun x : DictWorld V => x.dict.Has a b c e') hw.symm) hd'
  · have : runDictOps C [.call .setupFE, .call .getSlabMatrix, .assign "primal-jump" e', .call .prepare] ⟨d, w₀⟩ = ⟨_, w⟩ := hw
    rw [this]
    unfold Dict.getSlabMatrix
    rw [M.bind_ok (M.get_run w), h1]
    simp only [Option.isNone_some, Bool.false_eq_true, if_false]
    rw [M.bind_ok (M.get_run w), h1]
    rfl

/-! ## Non-vacuity and refutation -/

namespace Example
open Polynomial

/-- C99 is false. -/
theorem C99_violated : ¬ C99_statement ℝ[X] := by
  intro h
  have hm : (cfg false false).S.mass ((cfg false false).fe.bP 0) ((cfg false false).fe.bP 0) ≠ 0 := by
    have : (cfg false false).fe.bP 0 = 1 - X := by simp [cfg, fe]
    rw [this]
    refine (polySpace_mass_pos (p := 1 - X) fun h0 => ?_).ne'
    have := congrArg (eval 0) h0
    simp at this
  obtain ⟨st, h1, h2, A, h3, -, h4⟩ := C99_stale (cfg_ok false false) (s := 0) (by simp [cfg, fe]) hm
    (freshWorld_fresh fun _ => 0) (freshWorld_noFail _) someDict_has (e' := 2) (by norm_num)
  exact h4 ((h (cfg false false) (cfg_ok _ _) _ (freshWorld_fresh fun _ => 0) (freshWorld_noFail _) someDict _ st h1 _ _ _ _ h2).1 A h3)

example (heap : Ref → Vec) := C99_settled_partial (C := cfg false false) [.call .setupFE, .assign "data" 5, .del "unused"]
  (by simp [DictOp.calls, Op.BuildsForm]) ⟨someDict, freshWorld heap⟩ (a := 5) (b := 1) (c := 1e-3) (e := 1)
  (by constructor <;> simp [runDictOps, DictOp.step, someDict]) [.prepare, .getMatrix true]
example (heap : Ref → Vec) := C99_unchanged_partial (C := cfg false true) [.setupFE, .getSlabMatrix, .prepare] someDict_has
  (freshWorld_fresh heap)

example (heap : Ref → Vec) : ∃ t, runDictOps (cfg false false) [.del "primal", .call .setupFE, .assign "data" 5]
    ⟨someDict, freshWorld heap⟩ = t ∧ (Dict.runOp (cfg false false) t.dict .getSlabMatrix t.world).1 = .error .keyError := by
  have h1 := setupFE_fresh (C := cfg false false) (freshWorld_fresh heap) (freshWorld_noFail heap)
  have e : (runDictOps (cfg false false) [.del "primal", .call .setupFE, .assign "data" 5] ⟨someDict, freshWorld heap⟩).world
      = (setupFE (cfg false false) (freshWorld heap)).2 := rfl
  refine ⟨_, rfl, C99_removed [.call .setupFE, .assign "data" 5] "primal" (by simp) rfl ?_ ?_ .getSlabMatrix ?_⟩
  · rw [e]
    intro k _
    simp [setupFE, M.bind_run, ext, freshWorld, modObj, M.modify, setVec]
  · rw [e]
    exact fresh_setUp_dofmaps heap
  · rw [e, h1.2]
    simp [Op.reads, setUpObj, allKeys]

/-- There is something in the object that the provenance speaks about. -/
example (heap : Ref → Vec) : ∃ d w, runDictOps (cfg false false)
    ([.call .setupFE, .call .getSlabMatrix] ++ [.assign "data" 5] ++ [.call .prepare]) ⟨someDict, freshWorld heap⟩ = ⟨d, w⟩ ∧
    w.obj.slabMat ≠ none ∧ w.obj.coupMat ≠ none := by
  obtain ⟨w, h1, h2, -, -, h3, -⟩ := C99_mixed (C := cfg false false) (freshWorld_fresh heap) (freshWorld_noFail heap) someDict_has
    [.assign "data" 5] rfl (a' := 5) (b' := 1) (c' := 1e-3) (e' := 1)
    (by constructor <;> simp [runDictOps, DictOp.step, someDict])
  exact ⟨_, w, h1, by simp [h2], by simp [h3]⟩

end Example

end Dxss
