import Verif.Lemmas.Pres

/-! # Invariants of call histories -/

namespace Dxss
set_option linter.unusedSectionVars false
variable {V : Type} [AddCommGroup V] [Module ℝ V] (C : Cfg V)

/-- `b` extends `a`. -/
def OLe {α : Type} (a b : Option α) : Prop := ∀ x, a = some x → b = some x
theorem OLe.rfl' {α : Type} {a : Option α} : OLe a a := fun _ h => h
theorem OLe.trans' {α : Type} {a b c : Option α} (h : OLe a b) (h' : OLe b c) : OLe a c :=
  fun x hx => h' x (h x hx)
theorem OLe.of_none {α : Type} {a b : Option α} (h : a = none) : OLe a b := fun x hx => by
  rw [h] at hx; cases hx
theorem OLe.of_val {α : Type} {a : Option α} {v : α} (h : ∀ x, a = some x → x = v) : OLe a (some v) :=
  fun x hx => by rw [h x hx]

/-- Everything the object holds is what its configuration determines. -/
structure Inv (w : World V) : Prop where
  dofmaps : ∀ a, w.obj.dofmaps = some a → a = mkDofmaps C
  init : w.obj.dofmaps ≠ none → w.obj.u10 ≠ none ∧ w.obj.u20 ≠ none
  st : (w.obj.stBfi = none ∧ w.obj.stMat = none) ∨
    ∃ p, w.obj.stBfi = some (C.D.stForm p) ∧ w.obj.stMat = some (stMatOf C p)
  slabMat : ∀ a, w.obj.slabMat = some a → a = slabMatOf C true
  slabBfi : ∀ a, w.obj.slabBfi = some a → a = C.D.slabForm true
  slabMatNJ : ∀ a, w.obj.slabMatNJ = some a → a = slabMatOf C false
  slabBfiNJ : ∀ a, w.obj.slabBfiNJ = some a → a = C.D.slabForm false
  firstMat : ∀ a, w.obj.firstMat = some a → a = slabMatOf C C.D.wellPosed
  firstBfi : ∀ a, w.obj.firstBfi = some a → a = C.D.slabForm C.D.wellPosed
  coupMat : ∀ a, w.obj.coupMat = some a → a = coupMatOf C
  bndMat : ∀ a, w.obj.bndMat = some a → a = bndMatOf C
  rhs : (w.obj.lfi = none ∧ w.obj.rhs = none) ∨
    ∃ u v, w.obj.lfi = some (C.D.rhsForm C.S C.pts C.ws u v) ∧ w.obj.rhs = some () ∧
      w.heap .rhs = rhsVecOf C u v

/-- What is cached stays; with `b = true` also the right-hand side. -/
structure Keep (b : Bool) (w w' : World V) : Prop where
  dofmaps : OLe w.obj.dofmaps w'.obj.dofmaps
  stMat : OLe w.obj.stMat w'.obj.stMat
  stBfi : OLe w.obj.stBfi w'.obj.stBfi
  slabMat : OLe w.obj.slabMat w'.obj.slabMat
  slabBfi : OLe w.obj.slabBfi w'.obj.slabBfi
  slabMatNJ : OLe w.obj.slabMatNJ w'.obj.slabMatNJ
  slabVecs : OLe w.obj.slabVecs w'.obj.slabVecs
  firstMat : OLe w.obj.firstMat w'.obj.firstMat
  firstBfi : OLe w.obj.firstBfi w'.obj.firstBfi
  coupMat : OLe w.obj.coupMat w'.obj.coupMat
  coupVecs : OLe w.obj.coupVecs w'.obj.coupVecs
  bndMat : OLe w.obj.bndMat w'.obj.bndMat
  bndVecs : OLe w.obj.bndVecs w'.obj.bndVecs
  bRhsPre : OLe w.obj.bRhsPre w'.obj.bRhsPre
  first : w.obj.solverFirst ≠ none → w'.obj.solverFirst ≠ none
  slab : w.obj.solverSlab ≠ none → w'.obj.solverSlab ≠ none
  rhsSet : OLe w.obj.rhs w'.obj.rhs
  rhs : b = true → w.obj.rhs ≠ none →
    w'.obj.lfi = w.obj.lfi ∧ w'.obj.rhs = w.obj.rhs ∧ w'.heap .rhs = w.heap .rhs
  sched : w'.sched = w.sched
  clock : w.clock ≤ w'.clock

theorem Keep.refl (b : Bool) (w : World V) : Keep b w w := by
  constructor <;> first | exact OLe.rfl' | exact id | exact fun _ _ => ⟨rfl, rfl, rfl⟩ | rfl | exact le_rfl

theorem Keep.trans {b : Bool} {w w' w'' : World V} (h : Keep b w w') (h' : Keep b w' w'') :
    Keep b w w'' where
  dofmaps := h.dofmaps.trans' h'.dofmaps
  stMat := h.stMat.trans' h'.stMat
  stBfi := h.stBfi.trans' h'.stBfi
  slabMat := h.slabMat.trans' h'.slabMat
  slabBfi := h.slabBfi.trans' h'.slabBfi
  slabMatNJ := h.slabMatNJ.trans' h'.slabMatNJ
  slabVecs := h.slabVecs.trans' h'.slabVecs
  firstMat := h.firstMat.trans' h'.firstMat
  firstBfi := h.firstBfi.trans' h'.firstBfi
  coupMat := h.coupMat.trans' h'.coupMat
  coupVecs := h.coupVecs.trans' h'.coupVecs
  bndMat := h.bndMat.trans' h'.bndMat
  bndVecs := h.bndVecs.trans' h'.bndVecs
  bRhsPre := h.bRhsPre.trans' h'.bRhsPre
  first := fun x => h'.first (h.first x)
  slab := fun x => h'.slab (h.slab x)
  rhsSet := h.rhsSet.trans' h'.rhsSet
  rhs := fun hb x => by
    obtain ⟨a1, a2, a3⟩ := h.rhs hb x
    obtain ⟨b1, b2, b3⟩ := h'.rhs hb (by rw [a2]; exact x)
    exact ⟨b1.trans a1, b2.trans a2, b3.trans a3⟩
  sched := h'.sched.trans h.sched
  clock := h.clock.trans h'.clock

/-- The relation maintained by all calls. -/
def Rel.hist (b : Bool) : Rel (World V) where
  r w w' := Inv C w → Inv C w' ∧ Keep b w w'
  refl w h := ⟨h, .refl b w⟩
  trans h h' i := by
    obtain ⟨i1, k1⟩ := h i
    obtain ⟨i2, k2⟩ := h' i1
    exact ⟨i2, k1.trans k2⟩

variable {C} {b : Bool}

/-- A step which changes only attributes the invariant does not mention. -/
theorem hist_of_touch {α : Type} {A : Set Ref} (hA : Ref.rhs ∉ A) {x : WM V α} (h : Pres (Rel.touch A) x) :
    Pres (Rel.hist C b) x := by
  intro w i
  obtain ⟨ho, hs, hc, hh⟩ := h w
  have hr := hh _ hA
  refine ⟨?_, ?_⟩
  · constructor <;> (try rw [ho]) <;> (try rw [hr])
    exacts [i.dofmaps, i.init, i.st, i.slabMat, i.slabBfi, i.slabMatNJ, i.slabBfiNJ, i.firstMat,
      i.firstBfi, i.coupMat, i.bndMat, i.rhs]
  · constructor <;> (try rw [ho]) <;> first
      | exact OLe.rfl' | exact id | exact fun _ _ => ⟨rfl, rfl, hr⟩ | exact hs | exact hc

theorem hist_ext : Pres (Rel.hist C b) ext := hist_of_touch (A := ∅) (by simp) touch_ext
theorem hist_setVec {r : Ref} (h : r ≠ .rhs) (v : Vec) : Pres (Rel.hist C b) (setVec r v) :=
  hist_of_touch (A := {r}) (by simp [h.symm]) (touch_setVec (by simp) v)

/-- A step changing the object only. -/
theorem hist_mod {f : Obj V → Obj V}
    (h : ∀ w, Inv C w → Inv C { w with obj := f w.obj } ∧ Keep b w { w with obj := f w.obj }) :
    Pres (Rel.hist C b) (modObj f) := Pres.modify fun w i => h w i

macro "keep_tac" : tactic => `(tactic|
  (constructor <;> first
    | exact OLe.rfl' | exact id | exact fun _ _ => ⟨rfl, rfl, rfl⟩ | rfl | exact le_rfl
    | assumption | exact fun _ _ => rfl | simp))

theorem hist_setupFE : Pres (Rel.hist C b) (setupFE C) := by
  refine .bind hist_ext fun _ => .bind (hist_mod fun w i => ⟨?_, ?_⟩) fun _ =>
    .bind (hist_setVec (by simp) _) fun _ => .bind (hist_setVec (by simp) _) fun _ =>
    hist_setVec (by simp) _
  · exact { i with dofmaps := fun a h => by cases h; rfl, init := by simp }
  · have := OLe.of_val i.dofmaps
    keep_tac

/-- Two object modifications in a row. -/
theorem modObj_modObj (f g : Obj V → Obj V) :
    (do modObj f; modObj g : WM V Unit) = modObj fun o => g (f o) := rfl
theorem modObj_bind {α : Type} (f g : Obj V → Obj V) (k : WM V α) :
    (do modObj f; modObj g; k : WM V α) = (do modObj (fun o => g (f o)); k) := rfl

theorem hist_setupSpacetimeMatrix (p : Bool) : Pres (Rel.hist C b) (setupSpacetimeMatrix C p) :=
  .bind (.attr _ _) fun _ => .bind hist_ext fun _ => .pure _

theorem setupSpacetimeMatrix_cases (p : Bool) (w : World V) :
    (∃ e, (setupSpacetimeMatrix C p w).1 = .error e) ∨
      ((setupSpacetimeMatrix C p w).1 = .ok (stMatOf C p, C.D.stForm p)) := by
  unfold setupSpacetimeMatrix
  rw [M.bind_run]
  split
  · rw [M.bind_run]
    split
    · right; rfl
    · left; exact ⟨_, rfl⟩
  · left; exact ⟨_, rfl⟩

theorem setupSpacetimeMatrix_obj (p : Bool) (w : World V) :
    (setupSpacetimeMatrix C p w).2.obj = w.obj := by
  have : Pres (Rel.touch (V := V) ∅) (setupSpacetimeMatrix C p) :=
    .bind (.attr _ _) fun _ => .bind touch_ext fun _ => .pure _
  exact (this w).1

/-- Storing the space-time matrix when none is cached. -/
theorem hist_storeSt {w : World V} (h1 : w.obj.stBfi = none) (h2 : w.obj.stMat = none) (p : Bool)
    (i : Inv C w) :
    Inv C { w with obj := { w.obj with stBfi := some (C.D.stForm p), stMat := some (stMatOf C p) } } ∧
      Keep b w { w with obj := { w.obj with stBfi := some (C.D.stForm p), stMat := some (stMatOf C p) } } := by
  refine ⟨{ i with st := .inr ⟨p, rfl, rfl⟩ }, ?_⟩
  have := OLe.of_none (b := some (C.D.stForm p)) h1
  have := OLe.of_none (b := some (stMatOf C p)) h2
  keep_tac

theorem hist_getSpacetimeMatrix (p : Bool) : Pres (Rel.hist C b) (getSpacetimeMatrix C p) := by
  intro w
  unfold getSpacetimeMatrix
  rw [M.bind_ok (M.get_run w)]
  rcases h : w.obj.stMat with _ | A
  · simp only
    intro i
    have hb : w.obj.stBfi = none := by
      rcases i.st with ⟨h1, -⟩ | ⟨p, -, h2⟩
      · exact h1
      · rw [h] at h2; cases h2
    obtain ⟨i1, k1⟩ := hist_setupSpacetimeMatrix (b := b) p w i
    have ho := setupSpacetimeMatrix_obj (C := C) p w
    rw [M.bind_run]
    rcases setupSpacetimeMatrix_cases (C := C) p w with ⟨e, he⟩ | he
    · rw [he]; exact ⟨i1, k1⟩
    · rw [he]
      obtain ⟨i2, k2⟩ := hist_storeSt (b := b) (by rw [ho]; exact hb) (by rw [ho]; exact h) p i1
      exact ⟨i2, k1.trans k2⟩
  · exact fun i => ⟨i, .refl _ _⟩

theorem hist_getSpacetimeBfi (p : Bool) : Pres (Rel.hist C b) (getSpacetimeBfi C p) := by
  intro w
  unfold getSpacetimeBfi
  rw [M.bind_ok (M.get_run w)]
  rcases h : w.obj.stBfi with _ | A
  · simp only
    intro i
    have hb : w.obj.stMat = none := by
      rcases i.st with ⟨-, h1⟩ | ⟨p, h2, -⟩
      · exact h1
      · rw [h] at h2; cases h2
    obtain ⟨i1, k1⟩ := hist_setupSpacetimeMatrix (b := b) p w i
    have ho := setupSpacetimeMatrix_obj (C := C) p w
    rw [M.bind_run]
    rcases setupSpacetimeMatrix_cases (C := C) p w with ⟨e, he⟩ | he
    · rw [he]; exact ⟨i1, k1⟩
    · rw [he]
      obtain ⟨i2, k2⟩ := hist_storeSt (b := b) (by rw [ho]; exact h) (by rw [ho]; exact hb) p i1
      exact ⟨i2, k1.trans k2⟩
  · exact fun i => ⟨i, .refl _ _⟩

/-! ### right-hand side -/

/-- Outcome of `setup_rhs`. -/
theorem setupRhs_cases (w : World V) :
    ((∃ e, (setupRhs C w).1 = .error e) ∧ (setupRhs C w).2.obj = w.obj ∧ (setupRhs C w).2.heap = w.heap ∧
      (setupRhs C w).2.sched = w.sched ∧ w.clock ≤ (setupRhs C w).2.clock) ∨
    ∃ u v, w.obj.u10 = some u ∧ w.obj.u20 = some v ∧ w.obj.dofmaps ≠ none ∧ w.sched w.clock = false ∧
      setupRhs C w = (.ok (), { w with
        obj := { w.obj with lfi := some (C.D.rhsForm C.S C.pts C.ws u v), rhs := some () },
        heap := Function.update w.heap .rhs (rhsVecOf C u v), clock := w.clock + 1 }) := by
  unfold setupRhs
  rcases hd : w.obj.dofmaps with _ | dm
  · left; rw [M.bind_error (M.attr_none (by exact hd))]; exact ⟨⟨_, rfl⟩, rfl, rfl, rfl, le_rfl⟩
  rw [M.bind_ok (M.attr_some (by exact hd))]
  rcases h1 : w.obj.u10 with _ | u
  · left; rw [M.bind_error (M.attr_none (by exact h1))]; exact ⟨⟨_, rfl⟩, rfl, rfl, rfl, le_rfl⟩
  rw [M.bind_ok (M.attr_some (by exact h1))]
  rcases h2 : w.obj.u20 with _ | v
  · left; rw [M.bind_error (M.attr_none (by exact h2))]; exact ⟨⟨_, rfl⟩, rfl, rfl, rfl, le_rfl⟩
  rw [M.bind_ok (M.attr_some (by exact h2))]
  rcases hs : w.sched w.clock with _ | _
  · right
    refine ⟨u, v, rfl, rfl, by simp, rfl, ?_⟩
    have : (ext : WM V Unit) w = (.ok (), { w with clock := w.clock + 1 }) := by simp [ext, hs]
    rw [M.bind_ok this]
    rfl
  · left
    have : (ext : WM V Unit) w = (.error .runtimeError, { w with clock := w.clock + 1 }) := by simp [ext, hs]
    rw [M.bind_error this]
    exact ⟨⟨_, rfl⟩, rfl, rfl, rfl, Nat.le_succ _⟩

/-- `setup_rhs` keeps everything but an earlier right-hand side. -/
theorem hist_setupRhs_of {w : World V} (hb : b = true → w.obj.rhs = none) (i : Inv C w) :
    Inv C (setupRhs C w).2 ∧ Keep b w (setupRhs C w).2 := by
  rcases setupRhs_cases (C := C) w with ⟨-, ho, hh, hs, hc⟩ | ⟨u, v, -, -, -, -, he⟩
  · refine ⟨?_, ?_⟩
    · constructor <;> (try rw [ho]) <;> (try rw [hh])
      exacts [i.dofmaps, i.init, i.st, i.slabMat, i.slabBfi, i.slabMatNJ, i.slabBfiNJ, 
        i.firstMat, i.firstBfi, i.coupMat, i.bndMat, i.rhs]
    · constructor <;> (try rw [ho]) <;> (try rw [hh]) <;> first
        | exact OLe.rfl' | exact id | exact fun _ _ => ⟨rfl, rfl, rfl⟩ | exact hs | exact hc
  · rw [he]
    refine ⟨{ i with rhs := .inr ⟨u, v, rfl, rfl, ?_⟩ }, ?_⟩
    · exact Function.update_self (Ref.rhs) (rhsVecOf C u v) w.heap
    have h1 : b = true → w.obj.rhs ≠ none →
        (some (C.D.rhsForm C.S C.pts C.ws u v)) = w.obj.lfi ∧ some () = w.obj.rhs ∧
          Function.update w.heap .rhs (rhsVecOf C u v) .rhs = w.heap .rhs := fun h h' => absurd (hb h) h'
    have h2 : OLe w.obj.rhs (some ()) := fun _ _ => rfl
    constructor <;> first
      | exact OLe.rfl' | exact id | rfl | exact Nat.le_succ _ | assumption

theorem hist_setupRhs : Pres (Rel.hist C false) (setupRhs C) := fun _ i =>
  hist_setupRhs_of (fun h => by cases h) i

theorem hist_getSpacetimeRhs : Pres (Rel.hist C b) (getSpacetimeRhs C) := by
  intro w
  unfold getSpacetimeRhs
  rw [M.bind_ok (M.get_run w)]
  rcases h : w.obj.rhs with _ | _
  · simp only [Option.isNone_none, if_true]
    rw [M.bind_run]
    split <;> exact hist_setupRhs_of fun _ => h
  · exact fun i => ⟨i, .refl _ _⟩

theorem hist_getSpacetimeLfi : Pres (Rel.hist C b) (getSpacetimeLfi C) := by
  intro w
  unfold getSpacetimeLfi
  rw [M.bind_ok (M.get_run w)]
  have h2 : Pres (Rel.hist C b) (M.attr (fun w : World V => w.obj.lfi)) := .attr _ _
  rcases h : w.obj.lfi with _ | _
  · simp only [Option.isNone_none, if_true]
    intro i
    have hr : w.obj.rhs = none := by
      rcases i.rhs with ⟨-, h1⟩ | ⟨_, _, h1, -⟩
      · exact h1
      · rw [h] at h1; cases h1
    obtain ⟨i1, k1⟩ := hist_setupRhs_of (b := b) (fun _ => hr) i
    rw [M.bind_run]
    split
    · obtain ⟨i2, k2⟩ := h2 _ i1
      exact ⟨i2, k1.trans k2⟩
    · exact ⟨i1, k1⟩
  · exact h2 w

/-! ### slab and interface operators -/

theorem hist_setupCoupling : Pres (Rel.hist C b) (setupCoupling C) := by
  refine .bind (.attr _ _) fun _ => .bind hist_ext fun _ => .bind (hist_mod fun w i => ⟨?_, ?_⟩) fun _ =>
    .bind hist_ext fun _ => .bind (hist_mod fun w i => ⟨?_, ?_⟩) fun _ =>
    .bind (hist_setVec (by simp) _) fun _ => hist_setVec (by simp) _
  · exact { i with coupMat := fun a h => by cases h; rfl }
  · have := OLe.of_val i.coupMat
    keep_tac
  · exact { i with }
  · have : OLe w.obj.coupVecs (some ()) := fun _ _ => rfl
    keep_tac

theorem hist_setupScaledMass : Pres (Rel.hist C b) (setupScaledMass C) := by
  refine .bind (.attr _ _) fun _ => .bind hist_ext fun _ => .bind (hist_mod fun w i => ⟨?_, ?_⟩) fun _ =>
    .bind hist_ext fun _ => .bind (hist_mod fun w i => ⟨?_, ?_⟩) fun _ =>
    .bind (hist_setVec (by simp) _) fun _ => hist_setVec (by simp) _
  · exact { i with bndMat := fun a h => by cases h; rfl }
  · have := OLe.of_val i.bndMat
    keep_tac
  · exact { i with }
  · have : OLe w.obj.bndVecs (some ()) := fun _ _ => rfl
    keep_tac

theorem hist_first (j : Bool) (h : C.D.wellPosed = j) :
    Pres (Rel.hist C b) (do
      modObj fun o => { o with firstBfi := some (C.D.slabForm j) }
      modObj fun o => { o with firstMat := some (slabMatOf C j) } : WM V Unit) := by
  subst h
  refine .bind (hist_mod fun w i => ⟨?_, ?_⟩) fun _ => hist_mod fun w i => ⟨?_, ?_⟩
  · exact { i with firstBfi := fun a h => by cases h; rfl }
  · have := OLe.of_val i.firstBfi
    keep_tac
  · exact { i with firstMat := fun a h => by cases h; rfl }
  · have := OLe.of_val i.firstMat
    keep_tac

theorem hist_setupSlabMatrix (j : Bool) : Pres (Rel.hist C b) (setupSlabMatrix C j) := by
  refine .bind (.attr _ _) fun _ => .bind hist_ext fun _ => ?_
  cases j
  · refine .bind (hist_mod fun w i => ⟨?_, ?_⟩) fun _ => .bind (hist_mod fun w i => ⟨?_, ?_⟩) fun _ =>
      .bind hist_ext fun _ => .bind (hist_mod fun w i => ⟨?_, ?_⟩) fun _ =>
      .bind (hist_setVec (by simp) _) fun _ => .bind (hist_setVec (by simp) _) fun _ => ?_
    · exact { i with slabBfiNJ := fun a h => by cases h; rfl }
    · keep_tac
    · exact { i with slabMatNJ := fun a h => by cases h; rfl }
    · have := OLe.of_val i.slabMatNJ
      keep_tac
    · exact { i with }
    · have : OLe w.obj.slabVecs (some ()) := fun _ _ => rfl
      keep_tac
    · rcases h : C.D.wellPosed with _ | _
      · exact hist_first false h
      · exact .pure _
  · refine .bind (hist_mod fun w i => ⟨?_, ?_⟩) fun _ => .bind (hist_mod fun w i => ⟨?_, ?_⟩) fun _ => ?_
    · exact { i with slabBfi := fun a h => by cases h; rfl }
    · have := OLe.of_val i.slabBfi
      keep_tac
    · exact { i with slabMat := fun a h => by cases h; rfl }
    · have := OLe.of_val i.slabMat
      keep_tac
    · rcases h : C.D.wellPosed with _ | _
      · exact .pure _
      · exact hist_first true h

/-- `if attribute is None: x; rest` -/
theorem hist_unless {α : Type} {c : World V → Bool} {x : WM V Unit} {k : WM V α}
    (hx : Pres (Rel.hist C b) x) (hk : Pres (Rel.hist C b) k) :
    Pres (Rel.hist C b) (do
      let w ← M.get
      if c w then x
      k) := by
  refine .bind .get fun w => ?_
  split
  · exact .bind hx fun _ => hk
  · exact hk

theorem hist_unless_last {c : World V → Bool} {x : WM V Unit} (hx : Pres (Rel.hist C b) x) :
    Pres (Rel.hist C b) (do
      let w ← M.get
      if c w then x) := .bind .get fun _ => .ite hx (.pure _)

theorem hist_getSlabBfi : Pres (Rel.hist C b) (getSlabBfi C) := by
  unfold getSlabBfi
  refine .bind .get fun w => ?_
  split
  · exact .bind (hist_setupSlabMatrix _) fun _ => .bind (hist_setupSlabMatrix _) fun _ => .bind .get fun _ => .pure _
  · exact .bind .get fun _ => .pure _

theorem hist_getSlabMatrix : Pres (Rel.hist C b) (getSlabMatrix C) := by
  unfold getSlabMatrix
  refine .bind .get fun w => ?_
  split
  · exact .bind (hist_setupSlabMatrix _) fun _ => .bind (hist_setupSlabMatrix _) fun _ => .bind .get fun _ => .pure _
  · exact .bind .get fun _ => .pure _

/-- The part of `prepare_precondition_gmres` from the right-hand side on. -/
theorem hist_prepareRhs : Pres (Rel.hist C b) (do
    let w ← M.get
    if w.obj.rhs.isNone then setupRhs C
    let w ← M.get
    if w.obj.bndMat.isNone then setupScaledMass C : WM V Unit) := by
  intro w i
  rw [M.bind_ok (M.get_run w)]
  have hk : Pres (Rel.hist C b) (do
    let w ← M.get
    if w.obj.bndMat.isNone then setupScaledMass C : WM V Unit) := hist_unless_last hist_setupScaledMass
  rcases h : w.obj.rhs with _ | _
  · simp only [Option.isNone_none, if_true]
    obtain ⟨i1, k1⟩ := hist_setupRhs_of (b := b) (fun _ => h) i
    rw [M.bind_run]
    split
    · obtain ⟨i2, k2⟩ := hk _ i1
      exact ⟨i2, k1.trans k2⟩
    · exact ⟨i1, k1⟩
  · exact hk w i

theorem hist_allocRhsPre : Pres (Rel.hist C b) (do
    ext
    modObj fun o => { o with bRhsPre := some () }
    setVec .bRhsPre 0 : WM V Unit) := by
  refine .bind hist_ext fun _ => .bind (hist_mod fun w i => ⟨?_, ?_⟩) fun _ => hist_setVec (by simp) _
  · exact { i with }
  · have : OLe w.obj.bRhsPre (some ()) := fun _ _ => rfl
    keep_tac

theorem hist_prepareGmres : Pres (Rel.hist C b) (prepareGmres C) := by
  have h3 : Pres (Rel.hist C b) (do
      let w ← M.get
      if w.obj.coupMat.isNone then setupCoupling C
      let w ← M.get
      if w.obj.rhs.isNone then setupRhs C
      let w ← M.get
      if w.obj.bndMat.isNone then setupScaledMass C : WM V Unit) := hist_unless hist_setupCoupling hist_prepareRhs
  have h2 : Pres (Rel.hist C b) (do
      let w ← M.get
      if w.obj.firstMat.isNone && !C.D.wellPosed then
        setupSlabMatrix C false
      let w ← M.get
      if w.obj.coupMat.isNone then setupCoupling C
      let w ← M.get
      if w.obj.rhs.isNone then setupRhs C
      let w ← M.get
      if w.obj.bndMat.isNone then setupScaledMass C : WM V Unit) := hist_unless (hist_setupSlabMatrix _) h3
  unfold prepareGmres
  refine .bind .get fun w => ?_
  split
  · exact .bind (hist_setupSlabMatrix _) fun _ => .bind hist_ext fun _ =>
      .bind (hist_mod fun w i => ⟨{ i with }, by
        have : OLe w.obj.bRhsPre (some ()) := fun _ _ => rfl
        keep_tac⟩) fun _ => .bind (hist_setVec (by simp) _) fun _ => h2
  · exact h2

/-- A modification of attributes neither the invariant nor `Keep` mentions. -/
theorem hist_other {f : Obj V → Obj V}
    (h : ∀ o, { f o with u10 := o.u10, u20 := o.u20, solverFirst := o.solverFirst, solverSlab := o.solverSlab, coarseMaps := o.coarseMaps, coarseNode := o.coarseNode, coarseMat := o.coarseMat, fineTmps := o.fineTmps, coarseTmps := o.coarseTmps, solverCoarse := o.solverCoarse } = o)
    (hu : ∀ o, (o.u10 ≠ none → (f o).u10 ≠ none) ∧ (o.u20 ≠ none → (f o).u20 ≠ none))
    (hs : ∀ o, (o.solverFirst ≠ none → (f o).solverFirst ≠ none) ∧ (o.solverSlab ≠ none → (f o).solverSlab ≠ none)) :
    Pres (Rel.hist C b) (modObj f) := by
  refine hist_mod fun w i => ?_
  have e := h w.obj
  have g : ∀ {α : Type} (p : Obj V → α), p { f w.obj with u10 := w.obj.u10, u20 := w.obj.u20, solverFirst := w.obj.solverFirst, solverSlab := w.obj.solverSlab, coarseMaps := w.obj.coarseMaps, coarseNode := w.obj.coarseNode, coarseMat := w.obj.coarseMat, fineTmps := w.obj.fineTmps, coarseTmps := w.obj.coarseTmps, solverCoarse := w.obj.solverCoarse } = p w.obj :=
    fun p => congrArg p e
  have e1 : (f w.obj).dofmaps = w.obj.dofmaps := g (fun o => o.dofmaps)
  have e2 : (f w.obj).stBfi = w.obj.stBfi := g (fun o => o.stBfi)
  have e3 : (f w.obj).stMat = w.obj.stMat := g (fun o => o.stMat)
  have e4 : (f w.obj).slabBfi = w.obj.slabBfi := g (fun o => o.slabBfi)
  have e5 : (f w.obj).slabMat = w.obj.slabMat := g (fun o => o.slabMat)
  have e6 : (f w.obj).slabBfiNJ = w.obj.slabBfiNJ := g (fun o => o.slabBfiNJ)
  have e7 : (f w.obj).slabMatNJ = w.obj.slabMatNJ := g (fun o => o.slabMatNJ)
  have e8 : (f w.obj).firstBfi = w.obj.firstBfi := g (fun o => o.firstBfi)
  have e9 : (f w.obj).firstMat = w.obj.firstMat := g (fun o => o.firstMat)
  have e10 : (f w.obj).coupMat = w.obj.coupMat := g (fun o => o.coupMat)
  have e11 : (f w.obj).bndMat = w.obj.bndMat := g (fun o => o.bndMat)
  have e12 : (f w.obj).lfi = w.obj.lfi := g (fun o => o.lfi)
  have e13 : (f w.obj).rhs = w.obj.rhs := g (fun o => o.rhs)
  have e14 : (f w.obj).slabVecs = w.obj.slabVecs := g (fun o => o.slabVecs)
  have e15 : (f w.obj).coupVecs = w.obj.coupVecs := g (fun o => o.coupVecs)
  have e16 : (f w.obj).bndVecs = w.obj.bndVecs := g (fun o => o.bndVecs)
  have e17 : (f w.obj).bRhsPre = w.obj.bRhsPre := g (fun o => o.bRhsPre)
  refine ⟨?_, ?_⟩
  · refine ⟨?_, ?_, ?_, ?_, ?_, ?_, ?_, ?_, ?_, ?_, ?_, ?_⟩ <;>
      simp only [e1, e2, e3, e4, e5, e6, e7, e8, e9, e10, e11, e12, e13]
    exacts [i.dofmaps, fun h => ⟨(hu _).1 (i.init h).1, (hu _).2 (i.init h).2⟩, i.st, i.slabMat, i.slabBfi,
      i.slabMatNJ, i.slabBfiNJ, i.firstMat, i.firstBfi, i.coupMat, i.bndMat, i.rhs]
  · have hf := (hs w.obj).1
    have hl := (hs w.obj).2
    constructor <;>
      simp only [e1, e2, e3, e4, e5, e7, e8, e9, e10, e11, e12, e13, e14, e15, e16, e17] <;> first
      | exact OLe.rfl' | assumption | exact fun _ _ => ⟨rfl, rfl, rfl⟩ | trivial | simp

theorem hist_prepareCoarse (K : CoarseMesh V) : Pres (Rel.hist C b) (prepareCoarse C K) :=
  .bind hist_ext fun _ => .bind (hist_other (fun _ => rfl) (fun _ => ⟨id, id⟩) fun _ => ⟨id, id⟩) fun _ =>
  .bind (.attr _ _) fun _ => .bind (hist_other (fun _ => rfl) (fun _ => ⟨id, id⟩) fun _ => ⟨id, id⟩) fun _ =>
  .bind (hist_setVec (by simp) _) fun _ => .bind (hist_setVec (by simp) _) fun _ => .bind hist_ext fun _ =>
  .bind (hist_other (fun _ => rfl) (fun _ => ⟨id, id⟩) fun _ => ⟨id, id⟩) fun _ => .bind (.attr _ _) fun _ =>
  .bind hist_ext fun _ => .bind (hist_other (fun _ => rfl) (fun _ => ⟨id, id⟩) fun _ => ⟨id, id⟩) fun _ =>
  .bind (.forList fun _ _ => hist_setVec (by simp) _) fun _ => .bind hist_ext fun _ =>
  .bind (hist_other (fun _ => rfl) (fun _ => ⟨id, id⟩) fun _ => ⟨id, id⟩) fun _ =>
  .bind (hist_setVec (by simp) _) fun _ => hist_setVec (by simp) _

theorem hist_loadFinal (u : Ref) : Pres (Rel.hist C b) (loadFinal C u) :=
  .bind (.attr _ _) fun _ => .bind (.of_same fun _ => rfl) fun _ => .bind (hist_setVec (by simp) _) fun _ =>
  .bind (.of_same fun _ => rfl) fun _ => .bind (.lift _) fun _ =>
  .bind (hist_other (fun _ => rfl) (fun _ => ⟨by simp, id⟩) fun _ => ⟨id, id⟩) fun _ => .bind (.lift _) fun _ =>
  hist_other (fun _ => rfl) (fun _ => ⟨id, by simp⟩) fun _ => ⟨id, id⟩

theorem hist_measuredErrors (u : Ref) : Pres (Rel.hist C b) (measuredErrors C u) :=
  .bind (hist_loadFinal u) fun _ => .bind hist_ext fun _ => .bind (.attr _ _) fun _ =>
  .bind (.forAcc (fun acc n _ => hist_of_touch (A := {r | r ≠ .rhs}) (by simp)
    (touch_errBody C (by simp) (by simp) acc n)) _) fun _ =>
  .bind (.lift _) fun _ => .bind (.lift _) fun _ => .bind (.lift _) fun _ => .pure _

theorem hist_setInitial (u v : V) : Pres (Rel.hist C b) (setInitial u v) :=
  .bind (.attr _ _) fun _ => .bind (hist_other (fun _ => rfl) (fun _ => ⟨by simp, id⟩) fun _ => ⟨id, id⟩) fun _ =>
  .bind (.attr _ _) fun _ => hist_other (fun _ => rfl) (fun _ => ⟨id, by simp⟩) fun _ => ⟨id, id⟩

/-- Every public call except a direct `setup_rhs` (which replaces the right-hand side). -/
theorem hist_op (op : Op V) (h : b = true → op ≠ .setupRhs) : Pres (Rel.hist C b) (runOp C op) := by
  have hA : Ref.rhs ∉ {r : Ref | r ≠ .rhs} := by simp
  cases op with
  | setupFE => exact hist_setupFE
  | getMatrix p => exact (hist_getSpacetimeMatrix p).void
  | getBfi p => exact (hist_getSpacetimeBfi p).void
  | getRhs => exact hist_getSpacetimeRhs.void
  | getLfi => exact hist_getSpacetimeLfi.void
  | getSlabBfi => exact hist_getSlabBfi.void
  | getSlabMatrix => exact hist_getSlabMatrix.void
  | getFirstBfi => exact .void (.of_same fun _ => rfl)
  | getFirstMatrix => exact .void (.of_same fun _ => rfl)
  | setSolverFirst s => exact hist_other (fun _ => rfl) (fun _ => ⟨id, id⟩) fun _ => ⟨by simp, id⟩
  | setSolverSlab s => exact hist_other (fun _ => rfl) (fun _ => ⟨id, id⟩) fun _ => ⟨id, by simp⟩
  | prepare => exact hist_prepareGmres
  | apply x y => exact hist_of_touch hA (touch_apply C (by simp) (by simp))
  | pre x y => exact hist_of_touch hA (touch_pre C (by simp) (by simp))
  | preImproved x y => exact hist_of_touch hA (touch_preImproved C (by simp) (by simp))
  | errors u => exact (hist_measuredErrors _).void
  | paraView u => exact .bind (hist_loadFinal _) fun _ => hist_ext
  | prepareCoarse K => exact hist_prepareCoarse K
  | setSolverCoarse s => exact hist_other (fun _ => rfl) (fun _ => ⟨id, id⟩) fun _ => ⟨id, id⟩
  | qOp x y => exact hist_of_touch hA (touch_qOp C (by simp) (by simp) (by simp) (by simp) (by simp))
  | preTwolvl x y => exact .bind (.raise _) fun _ => hist_of_touch hA (.bind (.attr _ _) fun _ =>
      .bind (touch_apply C (by simp) (by simp)) fun _ => .bind (touch_getVec _) fun _ =>
      .bind (touch_setVec (by simp) _) fun _ => .bind (touch_getVec _) fun _ => .bind (touch_getVec _) fun _ =>
      .bind (touch_setVec (by simp) _) fun _ => .bind (touch_pre C (by simp) (by simp)) fun _ =>
      .bind (touch_getVec _) fun _ => .bind (touch_setVec (by simp) _) fun _ => .bind (touch_getVec _) fun _ =>
      .bind (touch_getVec _) fun _ => touch_setVec (by simp) _)
  | setupSlab j => exact hist_setupSlabMatrix j
  | setupCoupling => exact hist_setupCoupling
  | setupScaledMass => exact hist_setupScaledMass
  | setupRhs =>
    cases b
    · exact hist_setupRhs
    · exact absurd rfl (h rfl)
  | setInitial u v => exact hist_setInitial u v
  | setupMatrix p => exact (hist_setupSpacetimeMatrix p).void
  | slabMult x y => exact hist_of_touch hA (touch_matMult (by simp) _ _)
  | coupMult x y => exact hist_of_touch hA (touch_matMult (by simp) _ _)
  | getMatrixCoarse => exact .void (.of_same fun _ => rfl)
  | prolongation xc xf => exact hist_of_touch hA (touch_prolongation C (by simp) (by simp) (by simp))
  | restriction xc xf => exact hist_of_touch hA (touch_restriction C (by simp) (by simp) (by simp))
  | plot u => exact hist_of_touch hA (touch_plot _)
  | write k v => exact hist_of_touch hA (touch_setVec (by simp) v)

/-- Every history keeps the invariant and what is cached. -/
theorem hist_ops {ops : List (Op V)} (h : b = true → ∀ op ∈ ops, op ≠ .setupRhs) {w : World V} (i : Inv C w) :
    Inv C (runOps C ops w) ∧ Keep b w (runOps C ops w) := by
  induction ops generalizing w with
  | nil => exact ⟨i, .refl _ _⟩
  | cons op ops ih =>
    obtain ⟨i1, k1⟩ := hist_op (b := b) op (fun hb => h hb op (by simp)) w i
    obtain ⟨i2, k2⟩ := ih (fun hb o ho => h hb o (by simp [ho])) i1
    exact ⟨i2, k1.trans k2⟩

/-- A new object satisfies the invariant. -/
theorem Inv.of_fresh {w : World V} (h : w.Fresh) : Inv C w := by
  unfold World.Fresh at h
  constructor <;> rw [h] <;> simp

end Dxss
