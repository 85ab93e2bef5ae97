import Verif.Lemmas.Frame

/-!
# Property C80: the caller's vectors

A call writes into the vector passed as its output and into no other vector of the caller, whether it returns or
raises.
-/

namespace Dxss
set_option linter.unusedSectionVars false
variable {V : Type} [AddCommGroup V] [Module ℝ V] {C : Cfg V}

/-- The caller's vector that a call writes into. -/
def Op.output : Op V → Option ℕ
  | .apply _ y | .pre _ y | .preImproved _ y | .qOp _ y | .preTwolvl _ y => some y
  | .slabMult _ y | .coupMult _ y | .prolongation _ y | .restriction y _ | .write y _ => some y
  | _ => none

/-- The vector is unchanged. -/
def Rel.vec (r : Ref) : Rel (World V) where
  r w w' := w'.heap r = w.heap r
  refl _ := rfl
  trans h h' := h'.trans h

theorem vec_of_touch {α : Type} {r : Ref} {x : WM V α} (h : Pres (Rel.touch {r}ᶜ) x) : Pres (Rel.vec r) x :=
  fun w => (h w).2.2.2 r (by simp)

theorem vec_ext {r : Ref} : Pres (Rel.vec (V := V) r) ext := fun _ => rfl
theorem vec_mod {r : Ref} (f : Obj V → Obj V) : Pres (Rel.vec r) (modObj f) := fun _ => rfl
theorem vec_getVec {r : Ref} (r' : Ref) : Pres (Rel.vec (V := V) r) (getVec r') := fun _ => rfl
theorem vec_setVec {r r' : Ref} (h : r ≠ r') (v : Vec) : Pres (Rel.vec (V := V) r) (setVec r' v) :=
  fun _ => Function.update_of_ne h _ _

/-- Decompose a computation that does not write into the caller's vector. -/
macro "vec_tac" : tactic => `(tactic| repeat' (first
  | with_reducible exact vec_ext
  | with_reducible exact vec_mod _
  | with_reducible exact vec_getVec _
  | with_reducible exact vec_setVec (by simp) _
  | with_reducible exact Pres.attr _ _
  | with_reducible exact Pres.pure _
  | with_reducible exact Pres.get
  | with_reducible exact Pres.lift _
  | with_reducible exact Pres.raise _
  | with_reducible refine Pres.bind ?_ ?_
  | with_reducible refine Pres.forList ?_
  | with_reducible refine Pres.forAcc ?_ _
  | with_reducible intro _
  | split))

variable {k : ℕ}

theorem vec_setupFE : Pres (Rel.vec (.user k)) (setupFE C) := by unfold setupFE; vec_tac
theorem vec_setupSpacetimeMatrix (p : Bool) : Pres (Rel.vec (.user k)) (setupSpacetimeMatrix C p) := by
  unfold setupSpacetimeMatrix; vec_tac
theorem vec_setupRhs : Pres (Rel.vec (.user k)) (setupRhs C) := by unfold setupRhs; vec_tac
theorem vec_setupSlabMatrix (j : Bool) : Pres (Rel.vec (.user k)) (setupSlabMatrix C j) := by
  unfold setupSlabMatrix; vec_tac
theorem vec_setupCoupling : Pres (Rel.vec (.user k)) (setupCoupling C) := by unfold setupCoupling; vec_tac
theorem vec_setupScaledMass : Pres (Rel.vec (.user k)) (setupScaledMass C) := by unfold setupScaledMass; vec_tac
theorem vec_loadFinal (u : Ref) : Pres (Rel.vec (.user k)) (loadFinal C u) := by unfold loadFinal; vec_tac

theorem vec_unless {c : World V → Bool} {x : WM V Unit} {β : Type} {y : WM V β} (hx : Pres (Rel.vec (.user k)) x)
    (hy : Pres (Rel.vec (.user k)) y) : Pres (Rel.vec (.user k)) (do
      let w ← M.get
      if c w then x
      y) := by
  refine .bind .get fun _ => ?_
  split
  · exact .bind hx fun _ => hy
  · exact hy

theorem vec_prepareGmres : Pres (Rel.vec (.user k)) (prepareGmres C) := by
  have k4 : Pres (Rel.vec (.user k)) (do
      let w ← M.get
      if w.obj.bndMat.isNone then setupScaledMass C : WM V Unit) :=
    .bind .get fun _ => .ite vec_setupScaledMass (.pure _)
  have k2 := vec_unless (k := k) (c := fun w => w.obj.firstMat.isNone && !C.D.wellPosed)
    (vec_setupSlabMatrix (C := C) false) (vec_unless (c := fun w => w.obj.coupMat.isNone) (vec_setupCoupling (C := C))
      (vec_unless (c := fun w => w.obj.rhs.isNone) (vec_setupRhs (C := C)) k4))
  unfold prepareGmres
  refine .bind .get fun _ => ?_
  split
  · exact .bind (vec_setupSlabMatrix true) fun _ => .bind vec_ext fun _ => .bind (vec_mod _) fun _ =>
      .bind (vec_setVec (by simp) _) fun _ => k2
  · exact k2

/-- C80: one call. -/
theorem C80_only_output (op : Op V) (h : op.output ≠ some k) (w : World V) :
    (runOp C op w).2.heap (.user k) = w.heap (.user k) := by
  suffices Pres (Rel.vec (.user k)) (runOp C op) from this w
  have hu : ∀ y, some y ≠ some k → Ref.user y ∈ ({.user k} : Set Ref)ᶜ := by simp
  cases op with
  | setupFE => exact vec_setupFE
  | getMatrix p =>
    refine .void (.bind .get fun w => ?_)
    split
    · exact .pure _
    · exact .bind (vec_setupSpacetimeMatrix p) fun _ => .bind (vec_mod _) fun _ => .bind (vec_mod _) fun _ => .pure _
  | getBfi p =>
    refine .void (.bind .get fun w => ?_)
    split
    · exact .pure _
    · exact .bind (vec_setupSpacetimeMatrix p) fun _ => .bind (vec_mod _) fun _ => .bind (vec_mod _) fun _ => .pure _
  | getRhs => simp only [runOp, M.void, getSpacetimeRhs, setupRhs]; vec_tac
  | getLfi => simp only [runOp, M.void, getSpacetimeLfi, setupRhs]; vec_tac
  | getSlabBfi => simp only [runOp, M.void, getSlabBfi, setupSlabMatrix]; vec_tac
  | getSlabMatrix => simp only [runOp, M.void, getSlabMatrix, setupSlabMatrix]; vec_tac
  | getFirstBfi => exact .void (.of_same fun _ => rfl)
  | getFirstMatrix => exact .void (.of_same fun _ => rfl)
  | setSolverFirst s => exact vec_mod _
  | setSolverSlab s => exact vec_mod _
  | prepare => exact vec_prepareGmres
  | apply x y => exact vec_of_touch (touch_apply C (hu y h) (by simp))
  | pre x y => exact vec_of_touch (touch_pre C (hu y h) (by simp))
  | preImproved x y => exact vec_of_touch (touch_preImproved C (hu y h) (by simp))
  | errors u =>
    have hb : ∀ acc n, Pres (Rel.vec (.user k)) (errBody C acc n) := fun acc n =>
      vec_of_touch (touch_errBody C (by simp) (by simp) acc n)
    simp only [runOp, M.void, measuredErrors]
    refine .bind (.bind (vec_loadFinal _) fun _ => ?_) fun _ => .pure _
    repeat' (first | exact hb _ _ | vec_tac)
  | paraView u => exact .bind (vec_loadFinal _) fun _ => vec_ext
  | prepareCoarse K => simp only [runOp, prepareCoarse]; vec_tac
  | setSolverCoarse s => exact vec_mod _
  | qOp x y => exact vec_of_touch (touch_qOp C (hu y h) (by simp) (by simp) (by simp) (by simp))
  | preTwolvl x y => exact fun w => rfl
  | setupSlab j => exact vec_setupSlabMatrix j
  | setupCoupling => exact vec_setupCoupling
  | setupScaledMass => exact vec_setupScaledMass
  | setupRhs => exact vec_setupRhs
  | setInitial u v => simp only [runOp, setInitial]; vec_tac
  | setupMatrix p => exact .void (vec_setupSpacetimeMatrix p)
  | slabMult x y => exact vec_of_touch (touch_matMult (hu y h) _ _)
  | coupMult x y => exact vec_of_touch (touch_matMult (hu y h) _ _)
  | getMatrixCoarse => exact .void (.of_same fun _ => rfl)
  | prolongation xc xf => exact vec_of_touch (touch_prolongation C (hu xf h) (by simp) (by simp))
  | restriction xc xf => exact vec_of_touch (touch_restriction C (hu xc h) (by simp) (by simp))
  | plot u => exact vec_of_touch (touch_plot _)
  | write y v => exact vec_setVec (fun e => h (by cases e; rfl)) v

/-- C80: any sequence of calls. -/
theorem C80_history (ops : List (Op V)) (h : ∀ op ∈ ops, op.output ≠ some k) (w : World V) :
    (runOps C ops w).heap (.user k) = w.heap (.user k) := by
  induction ops generalizing w with
  | nil => rfl
  | cons op ops ih => exact (ih (fun o ho => h o (by simp [ho])) _).trans (C80_only_output op (h op (by simp)) w)

/-- C80: in particular the input vector of a call, if it is not also its output. -/
theorem C80_input_kept (op : Op V) (j : ℕ) (h : op.output = some j) (hk : k ≠ j) (w : World V) :
    (runOp C op w).2.heap (.user k) = w.heap (.user k) :=
  C80_only_output op (by rw [h]; exact fun e => hk (Option.some.inj e).symm) w

end Dxss
