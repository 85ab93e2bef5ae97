import Verif.Lemmas.Blind
import Verif.Props.RequestsApi
import Verif.Props.CallerVectors

/-!
# Properties C96, C97: what calls depend on

C96: a call depends on the object and on the vectors passed to it, on no other vector of the caller.  C97: the vector
`get_spacetime_rhs` returns is the cached one; changes the caller makes are seen by later requests.
-/

namespace Dxss
set_option linter.unusedSectionVars false
variable {V : Type} [AddCommGroup V] [Module ℝ V] {C : Cfg V}

/-- The caller changes the content of a vector. -/
def World.withVec (w : World V) (r : Ref) (v : Vec) : World V := { w with heap := Function.update w.heap r v }

theorem off_withVec (w : World V) (r : Ref) (v : Vec) : EqOff r (w.withVec r v) w :=
  ⟨rfl, fun _ h => Function.update_of_ne h _ _, rfl, rfl⟩

theorem withVec_self (w : World V) (r : Ref) (v : Vec) : (w.withVec r v).heap r = v := by simp [World.withVec]

/-! ## C96 -/

/-- No observation that does not involve the vector `r` distinguishes the two objects. -/
structure SameBut (C : Cfg V) (r : Ref) (a b : World V) : Prop where
  outcome : ∀ op : Op V, ¬ op.Involves r → (runOp C op a).1 = (runOp C op b).1
  vectors : ∀ x : InVec, x.ref ≠ r → a.heap x.ref = b.heap x.ref
  matrix : ∀ p, (getSpacetimeMatrix C p a).1 = (getSpacetimeMatrix C p b).1
  form : ∀ p, (getSpacetimeBfi C p a).1 = (getSpacetimeBfi C p b).1
  lfi : (getSpacetimeLfi C a).1 = (getSpacetimeLfi C b).1
  slabMatrix : (getSlabMatrix C a).1 = (getSlabMatrix C b).1
  slabForm : (getSlabBfi C a).1 = (getSlabBfi C b).1
  firstMatrix : (getSlabMatrixFirst a).1 = (getSlabMatrixFirst b).1
  firstForm : (getSlabBfiFirst a).1 = (getSlabBfiFirst b).1
  coarse : (getSpacetimeMatrixCoarse a).1 = (getSpacetimeMatrixCoarse b).1
  errors : ∀ u : InVec, u.ref ≠ r → (measuredErrors C u.ref a).1 = (measuredErrors C u.ref b).1

theorem EqOff.sameBut {r : Ref} (hr : r.External) {a b : World V} (h : EqOff r a b) : SameBut C r a b where
  outcome op ho := (blind_op hr op ho _ _ h).1
  vectors x hx := h.heap _ hx
  matrix p := (Blind.getMatrix p _ _ h).1
  form p := (Blind.getBfi p _ _ h).1
  lfi := (Blind.getLfi _ _ h).1
  slabMatrix := (Blind.getSlabMatrix _ _ h).1
  slabForm := (Blind.getSlabBfi _ _ h).1
  firstMatrix := (Blind.getFirstMatrix _ _ h).1
  firstForm := (Blind.getFirstBfi _ _ h).1
  coarse := (Blind.getMatrixCoarse _ _ h).1
  errors _ hu := (Blind.errors hr hu _ _ h).1

/-- C96: let the caller change one of their vectors (or the right-hand side they got) at any point.  As long as this vector is not
passed to a call, every call has the same outcome, every request returns the same and all other vectors of the caller are equal. -/
theorem C96_history (x : InVec) (v : Vec) (w : World V) (ops : List (Op V)) (hops : ∀ op ∈ ops, ¬ op.Involves x.ref) :
    SameBut C x.ref (runOps C ops (w.withVec x.ref v)) (runOps C ops w) := by
  have hr : x.ref.External := by cases x <;> trivial
  exact ((off_withVec w x.ref v).ops hr hops).sameBut hr

/-- C96: and a vector of the caller still has the content they gave it. -/
theorem C96_content (k : ℕ) (v : Vec) (w : World V) (ops : List (Op V)) (hops : ∀ op ∈ ops, ¬ op.Involves (.user k)) :
    (runOps C ops (w.withVec (.user k) v)).heap (.user k) = v := by
  rw [C80_history ops (fun op h e => ?_)]
  · exact Function.update_self _ _ _
  · have := hops op h
    cases op <;> simp_all [Op.output, Op.Involves]

/-! ## C97 -/

/-- C97, full statement: whatever the caller does with the vector they got from `get_spacetime_rhs`, the next request returns the
right-hand side again.  It is false. -/
def C97_statement (V : Type) [AddCommGroup V] [Module ℝ V] : Prop :=
  ∀ (C : Cfg V), C.Ok → ∀ w₀ : World V, w₀.Fresh → w₀.NoFail → ∀ (u u' : V) (r r' : Ref) (w₁ w₂ : World V) (v : Vec),
    getSpacetimeRhs C (runOps C [.setupFE, .setInitial u u'] w₀) = (.ok r, w₁) → getSpacetimeRhs C (w₁.withVec r v) = (.ok r', w₂) →
    ∀ d < C.full.size, w₂.heap r' d = rhsVecOf C u u' d

section
variable {r : Ref}

/-- While the right-hand side is set up its vector is not written. -/
def Rel.rhsKept : Rel (World V) where
  r w w' := w.obj.rhs ≠ none → w.obj.lfi ≠ none → w'.obj.rhs ≠ none ∧ w'.obj.lfi ≠ none ∧ w'.heap .rhs = w.heap .rhs
  refl _ h h' := ⟨h, h', rfl⟩
  trans h h' a b := by
    obtain ⟨c1, c2, c3⟩ := h a b
    obtain ⟨d1, d2, d3⟩ := h' c1 c2
    exact ⟨d1, d2, d3.trans c3⟩

theorem rhsKept_of {α : Type} {x : WM V α} (h : Pres (Rel.vec .rhs) x) (h' : Pres (Rel.frame fun o => (o.lfi, o.rhs)) x) :
    Pres Rel.rhsKept x := fun w a b =>
  ⟨fun e => a ((congrArg Prod.snd (h' w)).symm.trans e), fun e => b ((congrArg Prod.fst (h' w)).symm.trans e), h w⟩

theorem vecRhs_setupSlab (j : Bool) : Pres (Rel.vec .rhs) (setupSlabMatrix C j) := by unfold setupSlabMatrix; vec_tac
theorem vecRhs_setupCoupling : Pres (Rel.vec .rhs) (setupCoupling C) := by unfold setupCoupling; vec_tac
theorem vecRhs_setupScaledMass : Pres (Rel.vec .rhs) (setupScaledMass C) := by unfold setupScaledMass; vec_tac
theorem vecRhs_setupMatrix (p : Bool) : Pres (Rel.vec .rhs) (setupSpacetimeMatrix C p) := by unfold setupSpacetimeMatrix; vec_tac
theorem vecRhs_loadFinal (u : Ref) : Pres (Rel.vec .rhs) (loadFinal C u) := by unfold loadFinal; vec_tac

/-- Calls which do not build the right-hand side do not write its vector. -/
theorem vecRhs_op (op : Op V) (h : ¬ op.BuildsRhs) : Pres (Rel.vec .rhs) (runOp C op) := by
  cases op with
  | setupFE => unfold runOp setupFE; vec_tac
  | getMatrix p =>
    refine .void (.bind .get fun w => ?_)
    split
    · exact .pure _
    · exact .bind (vecRhs_setupMatrix p) fun _ => .bind (vec_mod _) fun _ => .bind (vec_mod _) fun _ => .pure _
  | getBfi p =>
    refine .void (.bind .get fun w => ?_)
    split
    · exact .pure _
    · exact .bind (vecRhs_setupMatrix p) fun _ => .bind (vec_mod _) fun _ => .bind (vec_mod _) fun _ => .pure _
  | getRhs | getLfi | prepare | setupRhs => exact (h trivial).elim
  | getSlabBfi => simp only [runOp, M.void, getSlabBfi, setupSlabMatrix]; vec_tac
  | getSlabMatrix => simp only [runOp, M.void, getSlabMatrix, setupSlabMatrix]; vec_tac
  | getFirstBfi => exact .void (.of_same fun _ => rfl)
  | getFirstMatrix => exact .void (.of_same fun _ => rfl)
  | setSolverFirst s => exact vec_mod _
  | setSolverSlab s => exact vec_mod _
  | apply x y => exact vec_of_touch (touch_apply C (by simp) (by simp))
  | pre x y => exact vec_of_touch (touch_pre C (by simp) (by simp))
  | preImproved x y => exact vec_of_touch (touch_preImproved C (by simp) (by simp))
  | errors u =>
    have hb : ∀ acc n, Pres (Rel.vec .rhs) (errBody C acc n) := fun acc n =>
      vec_of_touch (touch_errBody C (by simp) (by simp) acc n)
    simp only [runOp, M.void, measuredErrors]
    refine .bind (.bind (vecRhs_loadFinal _) fun _ => ?_) fun _ => .pure _
    repeat' (first | exact hb _ _ | vec_tac)
  | paraView u => exact .bind (vecRhs_loadFinal _) fun _ => vec_ext
  | prepareCoarse K => simp only [runOp, prepareCoarse]; vec_tac
  | setSolverCoarse s => exact vec_mod _
  | qOp x y => exact vec_of_touch (touch_qOp C (by simp) (by simp) (by simp) (by simp) (by simp))
  | preTwolvl x y => exact fun w => rfl
  | setupSlab j => exact vecRhs_setupSlab j
  | setupCoupling => exact vecRhs_setupCoupling
  | setupScaledMass => exact vecRhs_setupScaledMass
  | setInitial u v => simp only [runOp, setInitial]; vec_tac
  | setupMatrix p => exact .void (vecRhs_setupMatrix p)
  | slabMult x y => exact vec_of_touch (touch_matMult (by simp) _ _)
  | coupMult x y => exact vec_of_touch (touch_matMult (by simp) _ _)
  | getMatrixCoarse => exact .void (.of_same fun _ => rfl)
  | prolongation xc xf => exact vec_of_touch (touch_prolongation C (by simp) (by simp) (by simp))
  | restriction xc xf => exact vec_of_touch (touch_restriction C (by simp) (by simp) (by simp))
  | plot u => exact vec_of_touch (touch_plot _)
  | write y v => exact vec_setVec (by simp) v

theorem rhsKept_guard {x : WM V Unit} {β : Type} {y : WM V β} (hy : Pres Rel.rhsKept y) : Pres Rel.rhsKept (do
      let w ← M.get
      if w.obj.rhs.isNone then x
      y) := by
  intro w a b
  rw [M.bind_ok (M.get_run w)]
  rw [if_neg (by simpa using a)]
  exact hy w a b

theorem rhsKept_prepare : Pres Rel.rhsKept (prepareGmres C) := by
  have s : ∀ op : Op V, ¬ op.BuildsRhs → Pres Rel.rhsKept (runOp C op) := fun op h =>
    rhsKept_of (vecRhs_op op h) (frame_rhs op h)
  have k4 : Pres Rel.rhsKept (do
      let w ← M.get
      if w.obj.bndMat.isNone then setupScaledMass C : WM V Unit) := .bind .get fun _ => .ite (s .setupScaledMass id) (.pure _)
  have k3 := rhsKept_guard (x := setupRhs C) k4
  have k2 : Pres Rel.rhsKept (do
      let w ← M.get
      if w.obj.coupMat.isNone then setupCoupling C
      let w ← M.get
      if w.obj.rhs.isNone then setupRhs C
      let w ← M.get
      if w.obj.bndMat.isNone then setupScaledMass C : WM V Unit) := by
    refine .bind .get fun _ => ?_
    split
    · exact .bind (s .setupCoupling id) fun _ => k3
    · exact k3
  have k1 : Pres Rel.rhsKept (do
      let w ← M.get
      if w.obj.firstMat.isNone && !C.D.wellPosed then
        setupSlabMatrix C false
      let w ← M.get
      if w.obj.coupMat.isNone then setupCoupling C
      let w ← M.get
      if w.obj.rhs.isNone then setupRhs C
      let w ← M.get
      if w.obj.bndMat.isNone then setupScaledMass C : WM V Unit) := by
    refine .bind .get fun _ => ?_
    split
    · exact .bind (s (.setupSlab false) id) fun _ => k2
    · exact k2
  unfold prepareGmres
  refine .bind .get fun _ => ?_
  split
  · refine .bind (s (.setupSlab true) id) fun _ => .bind (fun _ a b => ⟨a, b, rfl⟩) fun _ =>
      .bind (fun _ a b => ⟨a, b, rfl⟩) fun _ => .bind (fun w a b => ⟨a, b, ?_⟩) fun _ => k1
    exact vec_setVec (V := V) (r := .rhs) (by simp) 0 w
  · exact k1

theorem rhsKept_op (op : Op V) (h : op ≠ .setupRhs) : Pres Rel.rhsKept (runOp C op) := by
  by_cases hb : op.BuildsRhs
  swap
  · exact rhsKept_of (vecRhs_op op hb) (frame_rhs op hb)
  cases op with
  | setupRhs => exact (h rfl).elim
  | getRhs => exact .void (rhsKept_guard (.pure _))
  | getLfi =>
    refine .void fun w a b => ?_
    unfold getSpacetimeLfi
    rw [M.bind_ok (M.get_run w)]
    rw [if_neg (by simpa using b)]
    exact Pres.attr (R := Rel.rhsKept) _ _ w a b
  | prepare => exact rhsKept_prepare
  | _ => exact hb.elim

theorem rhsKept_ops {ops : List (Op V)} (h : .setupRhs ∉ ops) {w : World V} (a : w.obj.rhs ≠ none) (b : w.obj.lfi ≠ none) :
    (runOps C ops w).obj.rhs ≠ none ∧ (runOps C ops w).obj.lfi ≠ none ∧ (runOps C ops w).heap .rhs = w.heap .rhs := by
  induction ops generalizing w with
  | nil => exact ⟨a, b, rfl⟩
  | cons op ops ih =>
    obtain ⟨c1, c2, c3⟩ := rhsKept_op (C := C) op (fun e => h (by simp [e])) w a b
    obtain ⟨d1, d2, d3⟩ := ih (fun e => h (by simp [e])) c1 c2
    exact ⟨d1, d2, d3.trans c3⟩

theorem getRhs_set {w : World V} (a : w.obj.rhs ≠ none) : getSpacetimeRhs C w = (.ok .rhs, w) := by
  unfold getSpacetimeRhs
  rw [M.bind_ok (M.get_run w)]
  rw [if_neg (by simpa using a)]
  rfl

/-- C97, what happens: the vector returned is the cached one.  After the caller changed it, requests return what they wrote, until
`setup_rhs` is called. -/
theorem C97_shared {w₀ : World V} (h₀ : w₀.Fresh) (ops : List (Op V)) {w₁ : World V}
    (h : getSpacetimeRhs C (runOps C ops w₀) = (.ok r, w₁)) (v : Vec) (ops' : List (Op V)) (hops' : .setupRhs ∉ ops') :
    ∃ w₂, getSpacetimeRhs C (runOps C ops' (w₁.withVec r v)) = (.ok r, w₂) ∧ w₂.heap r = v := by
  obtain ⟨rfl, hr⟩ := getSpacetimeRhs_post h
  have i : Inv C w₁ := by
    have := inv_reach (C := C) h₀ (ops ++ [.getRhs])
    rwa [runOps, List.foldl_append, List.foldl_cons, List.foldl_nil, ← runOps,
      show (runOp C .getRhs (runOps C ops w₀)).2 = w₁ by change ((getSpacetimeRhs C).void _).2 = _; rw [void_snd, h]] at this
  have hl : w₁.obj.lfi ≠ none := by
    rcases i.rhs with ⟨-, e⟩ | ⟨_, _, e, -⟩
    · rw [hr] at e; cases e
    · rw [e]; simp
  obtain ⟨c1, -, c3⟩ := rhsKept_ops (C := C) hops' (w := w₁.withVec .rhs v) (by change w₁.obj.rhs ≠ none; rw [hr]; simp) hl
  exact ⟨_, getRhs_set c1, c3.trans (withVec_self _ _ _)⟩

/-- C97, what does hold (1): no call that the vector is not passed to notices the change (an instance of C96). -/
theorem C97_unnoticed_partial (v : Vec) (w : World V) (ops : List (Op V)) (hops : ∀ op ∈ ops, ¬ op.Involves .rhs) :
    SameBut C .rhs (runOps C ops (w.withVec .rhs v)) (runOps C ops w) := C96_history .rhs v w ops hops

/-- C97, what does hold (2): a call of `setup_rhs` which returns undoes the change: everything is as if the vector had not been changed. -/
theorem C97_rebuild_partial (v : Vec) (w : World V) (h : (setupRhs C w).1 = .ok ()) :
    setupRhs C (w.withVec .rhs v) = setupRhs C w := by
  rcases setupRhs_cases (C := C) w with ⟨⟨e, he⟩, -⟩ | ⟨u, u', -, -, -, -, he⟩
  · rw [he] at h; cases h
  have hb := (Blind.setupRhs (C := C) (r := .rhs)) _ _ (off_withVec w .rhs v)
  have h1 := hb.1
  rw [he] at h1
  rcases setupRhs_cases (C := C) (w.withVec .rhs v) with ⟨⟨e, he'⟩, -⟩ | ⟨z, z', e1, e2, -, -, he'⟩
  · rw [he'] at h1; cases h1
  rcases setupRhs_cases (C := C) w with ⟨⟨e, he2⟩, -⟩ | ⟨u, u', f1, f2, -, -, he2⟩
  · rw [he2] at h; cases h
  have g1 : z = u := Option.some.inj ((show w.obj.u10 = some z from e1).symm.trans f1)
  have g2 : z' = u' := Option.some.inj ((show w.obj.u20 = some z' from e2).symm.trans f2)
  subst g1; subst g2
  rw [he', he2]
  simp only [World.withVec, Function.update_idem]

end

namespace Example
open Polynomial

/-- C96 applied: the errors reported for one vector after changing another. -/
example (heap : Ref → Vec) (v : Vec) : (measuredErrors (cfg false false) (.user 0) (runOps (cfg false false) [.setupFE, .prepare, .getMatrix false,
      .apply (.user 0) 1] ((freshWorld heap).withVec (.user 2) v))).1
    = (measuredErrors (cfg false false) (.user 0) (runOps (cfg false false) [.setupFE, .prepare, .getMatrix false,
      .apply (.user 0) 1] (freshWorld heap))).1 :=
  (C96_history (.user 2) v _ _ (by simp [Op.Involves, InVec.ref])).errors (.user 0) (by simp [InVec.ref])

/-- C97 is violated: the caller scales the vector, the next request returns the scaled vector. -/
theorem C97_violated : ¬ C97_statement ℝ[X] := by
  intro H
  obtain ⟨w₁, h⟩ := getRhs_after (cfg false false) (fun _ => 0) 0 0 []
  obtain ⟨w₂, h2, e⟩ := C97_shared (freshWorld_fresh _) _ h (rhsVecOf (cfg false false) 0 0 + 1) [] (by simp)
  have := H _ (cfg_ok false false) (freshWorld fun _ => 0) (freshWorld_fresh _) (freshWorld_noFail _) 0 0 _ _ _ _ _ h h2 0
    (lt_of_le_of_lt (Nat.zero_le _) ((cfg_ok false false).full.lt 1 0 0 (by decide) (by decide)))
  rw [e] at this
  simp at this

end Example
end Dxss
