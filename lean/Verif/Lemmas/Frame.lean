import Verif.Lemmas.History

/-! # Which calls write which attributes -/

namespace Dxss
set_option linter.unusedSectionVars false
variable {V : Type} [AddCommGroup V] [Module ℝ V] {C : Cfg V} {α : Type} {p : Obj V → α}

/-- The attribute(s) `p` are unchanged. -/
def Rel.frame (p : Obj V → α) : Rel (World V) where
  r w w' := p w'.obj = p w.obj
  refl _ := rfl
  trans h h' := h'.trans h

theorem frame_of_touch {β : Type} {A : Set Ref} {x : WM V β} (h : Pres (Rel.touch A) x) :
    Pres (Rel.frame p) x := fun w => congrArg p (h w).1
theorem frame_ext : Pres (Rel.frame p) ext := fun _ => rfl
theorem frame_setVec (r : Ref) (v : Vec) : Pres (Rel.frame p) (setVec r v) := fun _ => rfl
theorem frame_getVec (r : Ref) : Pres (Rel.frame p) (getVec r) := fun _ => rfl
theorem frame_mod {f : Obj V → Obj V} (h : ∀ o, p (f o) = p o) : Pres (Rel.frame p) (modObj f) := fun _ => h _
theorem frame_errBody (acc : ErrAcc) (n : ℕ) : Pres (Rel.frame p) (errBody C acc n) :=
  frame_of_touch (A := Set.univ) (touch_errBody C (by simp) (by simp) acc n)

/-- Decompose a computation into its steps. -/
macro "pres_tac" : tactic => `(tactic| repeat' (first
  | with_reducible exact frame_ext
  | with_reducible exact frame_setVec _ _
  | with_reducible exact frame_getVec _
  | with_reducible exact frame_errBody _ _
  | exact frame_mod fun _ => rfl
  | with_reducible exact Pres.attr _ _
  | with_reducible exact Pres.pure _
  | with_reducible exact Pres.get
  | with_reducible exact Pres.lift _
  | with_reducible exact Pres.raise _
  | with_reducible refine Pres.bind ?_ ?_
  | with_reducible refine Pres.forList ?_
  | with_reducible refine Pres.forAcc ?_ _
  | with_reducible intro _
  | split))

theorem frame_preTwolvl (b x : Ref) : Pres (Rel.frame p) (preTwolvl C b x) := fun _ => rfl

theorem frame_prepare (h1 : Pres (Rel.frame p) (setupSlabMatrix C true)) (h1' : Pres (Rel.frame p) (setupSlabMatrix C false))
    (h2 : Pres (Rel.frame p) (setupCoupling C)) (h3 : Pres (Rel.frame p) (setupRhs C))
    (h4 : Pres (Rel.frame p) (setupScaledMass C)) (h5 : ∀ o : Obj V, p { o with bRhsPre := some () } = p o) :
    Pres (Rel.frame p) (prepareGmres C) := by
  have k4 : Pres (Rel.frame p) (do
      let w ← M.get
      if w.obj.bndMat.isNone then setupScaledMass C : WM V Unit) := .bind .get fun _ => .ite h4 (.pure _)
  have k3 : Pres (Rel.frame p) (do
      let w ← M.get
      if w.obj.rhs.isNone then setupRhs C
      let w ← M.get
      if w.obj.bndMat.isNone then setupScaledMass C : WM V Unit) := by
    refine .bind .get fun _ => ?_
    split
    · exact .bind h3 fun _ => k4
    · exact k4
  have k2 : Pres (Rel.frame p) (do
      let w ← M.get
      if w.obj.coupMat.isNone then setupCoupling C
      let w ← M.get
      if w.obj.rhs.isNone then setupRhs C
      let w ← M.get
      if w.obj.bndMat.isNone then setupScaledMass C : WM V Unit) := by
    refine .bind .get fun _ => ?_
    split
    · exact .bind h2 fun _ => k3
    · exact k3
  have k1 : Pres (Rel.frame p) (do
      let w ← M.get
      if w.obj.firstMat.isNone && !C.D.wellPosed then
        setupSlabMatrix C false
      let w ← M.get
      if w.obj.coupMat.isNone then setupCoupling C
      let w ← M.get
      if w.obj.rhs.isNone then setupRhs C
      let w ← M.get
      if w.obj.bndMat.isNone then setupScaledMass C : WM V Unit) := by
    refine .bind .get fun _ => ?_
    split
    · exact .bind h1' fun _ => k2
    · exact k2
  unfold prepareGmres
  refine .bind .get fun _ => ?_
  split
  · exact .bind h1 fun _ => .bind frame_ext fun _ => .bind (frame_mod h5) fun _ => .bind (frame_setVec _ _) fun _ => k1
  · exact k1

/-- Case distinction over all calls for a frame statement; `h` excludes the calls that write. -/
macro "op_frame_tac " op:ident h:ident : tactic => `(tactic| (cases $op:ident with
  | setupFE  => first | exact absurd trivial $h | (simp only [runOp, setupFE]; pres_tac; done)
  | getMatrix _ => first | exact absurd trivial $h | (simp only [runOp, M.void, getSpacetimeMatrix, setupSpacetimeMatrix]; pres_tac; done)
  | getBfi _ => first | exact absurd trivial $h | (simp only [runOp, M.void, getSpacetimeBfi, setupSpacetimeMatrix]; pres_tac; done)
  | getRhs  => first | exact absurd trivial $h | (simp only [runOp, M.void, getSpacetimeRhs, setupRhs]; pres_tac; done)
  | getLfi  => first | exact absurd trivial $h | (simp only [runOp, M.void, getSpacetimeLfi, setupRhs]; pres_tac; done)
  | getSlabBfi  => first | exact absurd trivial $h | (simp only [runOp, M.void, getSlabBfi, setupSlabMatrix]; pres_tac; done)
  | getSlabMatrix  => first | exact absurd trivial $h | (simp only [runOp, M.void, getSlabMatrix, setupSlabMatrix]; pres_tac; done)
  | getFirstBfi  => first | exact absurd trivial $h | exact Pres.void (Pres.of_same fun _ => rfl)
  | getFirstMatrix  => first | exact absurd trivial $h | exact Pres.void (Pres.of_same fun _ => rfl)
  | setSolverFirst _ => first | exact absurd trivial $h | (simp only [runOp, setSolverFirst]; pres_tac; done)
  | setSolverSlab _ => first | exact absurd trivial $h | (simp only [runOp, setSolverSlab]; pres_tac; done)
  | prepare  => first | exact absurd trivial $h | (refine frame_prepare ?_ ?_ ?_ ?_ ?_ ?_ <;> first | exact (fun _ => rfl) | (simp only [setupSlabMatrix, setupCoupling, setupRhs, setupScaledMass]; pres_tac; done))
  | apply _ _ => first | exact absurd trivial $h | exact frame_of_touch (A := Set.univ) (touch_apply _ (by simp) (by simp))
  | pre _ _ => first | exact absurd trivial $h | exact frame_of_touch (A := Set.univ) (touch_pre _ (by simp) (by simp))
  | preImproved _ _ => first | exact absurd trivial $h | exact frame_of_touch (A := Set.univ) (touch_preImproved _ (by simp) (by simp))
  | errors _ => first | exact absurd trivial $h | (simp only [runOp, M.void, measuredErrors, loadFinal]; pres_tac; done)
  | paraView _ => first | exact absurd trivial $h | (simp only [runOp, plotParaView, loadFinal]; pres_tac; done)
  | prepareCoarse _ => first | exact absurd trivial $h | (simp only [runOp, prepareCoarse]; pres_tac; done)
  | setSolverCoarse _ => first | exact absurd trivial $h | (simp only [runOp, setSolverCoarse]; pres_tac; done)
  | qOp _ _ => first | exact absurd trivial $h | exact frame_of_touch (A := Set.univ) (touch_qOp _ (by simp) (by simp) (by simp) (by simp) (by simp))
  | preTwolvl _ _ => first | exact absurd trivial $h | exact frame_preTwolvl _ _
  | setupSlab j => first | exact absurd trivial $h | (cases j <;> first | exact absurd trivial $h | (simp only [runOp, setupSlabMatrix, if_true, Bool.false_eq_true, if_false]; pres_tac; done))
  | setupCoupling  => first | exact absurd trivial $h | (simp only [runOp, setupCoupling]; pres_tac; done)
  | setupScaledMass  => first | exact absurd trivial $h | (simp only [runOp, setupScaledMass]; pres_tac; done)
  | setupRhs  => first | exact absurd trivial $h | (simp only [runOp, setupRhs]; pres_tac; done)
  | setInitial _ _ => first | exact absurd trivial $h | (simp only [runOp, setInitial]; pres_tac; done)
  | setupMatrix _ => first | exact absurd trivial $h | (simp only [runOp, M.void, setupSpacetimeMatrix]; pres_tac; done)
  | slabMult _ _ => first | exact absurd trivial $h | exact frame_of_touch (A := Set.univ) (touch_matMult (by simp) _ _)
  | coupMult _ _ => first | exact absurd trivial $h | exact frame_of_touch (A := Set.univ) (touch_matMult (by simp) _ _)
  | getMatrixCoarse => first | exact absurd trivial $h | exact Pres.void (Pres.of_same fun _ => rfl)
  | prolongation _ _ => first | exact absurd trivial $h | exact frame_of_touch (A := Set.univ) (touch_prolongation _ (by simp) (by simp) (by simp))
  | restriction _ _ => first | exact absurd trivial $h | exact frame_of_touch (A := Set.univ) (touch_restriction _ (by simp) (by simp) (by simp))
  | plot _ => first | exact absurd trivial $h | exact frame_of_touch (A := Set.univ) (touch_plot _)
  | write _ _ => first | exact absurd trivial $h | exact frame_setVec _ _))

/-- Calls that may write the first-slab solver. -/
def Op.SetsFirst : Op V → Prop
  | .setSolverFirst _ => True
  | _ => False

theorem frame_solverFirst (op : Op V) (h : ¬ op.SetsFirst) : Pres (Rel.frame fun o => o.solverFirst) (runOp C op) := by
  op_frame_tac op h

/-- Calls that may write the slab solver. -/
def Op.SetsSlab : Op V → Prop
  | .setSolverSlab _ => True
  | _ => False

theorem frame_solverSlab (op : Op V) (h : ¬ op.SetsSlab) : Pres (Rel.frame fun o => o.solverSlab) (runOp C op) := by
  op_frame_tac op h

/-- Calls that may write the preconditioner work vector. -/
def Op.AllocatesRhsPre : Op V → Prop
  | .prepare => True
  | _ => False

theorem frame_bRhsPre (op : Op V) (h : ¬ op.AllocatesRhsPre) : Pres (Rel.frame fun o => o.bRhsPre) (runOp C op) := by
  op_frame_tac op h

/-- Calls that may write the jump-free slab matrix. -/
def Op.BuildsSlab : Op V → Prop
  | .prepare | .setupSlab false | .getSlabBfi | .getSlabMatrix => True
  | _ => False

theorem frame_slab (op : Op V) (h : ¬ op.BuildsSlab) : Pres (Rel.frame fun o => (o.slabVecs, o.slabMatNJ)) (runOp C op) := by
  op_frame_tac op h

/-- Calls that may write the initial data. -/
def Op.WritesInitial : Op V → Prop
  | .setupFE | .setInitial _ _ | .errors _ | .paraView _ => True
  | _ => False

theorem frame_initial (op : Op V) (h : ¬ op.WritesInitial) : Pres (Rel.frame fun o => (o.u10, o.u20)) (runOp C op) := by
  op_frame_tac op h

/-- Calls that may write the right-hand side. -/
def Op.BuildsRhs : Op V → Prop
  | .prepare | .getRhs | .getLfi | .setupRhs => True
  | _ => False

theorem frame_rhs (op : Op V) (h : ¬ op.BuildsRhs) : Pres (Rel.frame fun o => (o.lfi, o.rhs)) (runOp C op) := by
  op_frame_tac op h

/-- Calls that may write the space-time matrix. -/
def Op.BuildsMatrix : Op V → Prop
  | .getMatrix _ | .getBfi _ => True
  | _ => False

theorem frame_stMat (op : Op V) (h : ¬ op.BuildsMatrix) : Pres (Rel.frame fun o => (o.stBfi, o.stMat)) (runOp C op) := by
  op_frame_tac op h

/-- A frame condition for a history. -/
theorem frame_ops {P : Op V → Prop} (h : ∀ op, ¬ P op → Pres (Rel.frame p) (runOp C op)) {ops : List (Op V)}
    (hops : ∀ op ∈ ops, ¬ P op) (w : World V) : p (runOps C ops w).obj = p w.obj := by
  induction ops generalizing w with
  | nil => rfl
  | cons op ops ih =>
    exact (ih (fun o ho => hops o (by simp [ho])) _).trans (h op (hops op (by simp)) w)

/-- The first-slab solver after a history is one that was set in it. -/
theorem solverFirst_mem {ops : List (Op V)} {w : World V} {s : Solver}
    (h : (runOps C ops w).obj.solverFirst = some s) : w.obj.solverFirst = some s ∨ .setSolverFirst s ∈ ops := by
  induction ops generalizing w with
  | nil => exact .inl h
  | cons op ops ih =>
    rcases ih h with h' | h'
    · by_cases hop : ∃ s', op = .setSolverFirst s'
      · obtain ⟨s', rfl⟩ := hop
        have : s' = s := Option.some.inj h'
        subst this; exact .inr (by simp)
      · exact .inl ((frame_solverFirst op (fun e => hop (by cases op <;> first | exact ⟨_, rfl⟩ | exact e.elim)) w).symm.trans h')
    · exact .inr (by simp [h'])

theorem solverSlab_mem {ops : List (Op V)} {w : World V} {s : Solver}
    (h : (runOps C ops w).obj.solverSlab = some s) : w.obj.solverSlab = some s ∨ .setSolverSlab s ∈ ops := by
  induction ops generalizing w with
  | nil => exact .inl h
  | cons op ops ih =>
    rcases ih h with h' | h'
    · by_cases hop : ∃ s', op = .setSolverSlab s'
      · obtain ⟨s', rfl⟩ := hop
        have : s' = s := Option.some.inj h'
        subst this; exact .inr (by simp)
      · exact .inl ((frame_solverSlab op (fun e => hop (by cases op <;> first | exact ⟨_, rfl⟩ | exact e.elim)) w).symm.trans h')
    · exact .inr (by simp [h'])

/-- Once set, a solver stays set (possibly replaced). -/
theorem solverFirst_set {ops : List (Op V)} {w : World V} {s : Solver} (hs : .setSolverFirst s ∈ ops) (i : Inv C w) :
    (runOps C ops w).obj.solverFirst ≠ none := by
  induction ops generalizing w with
  | nil => cases hs
  | cons op ops ih =>
    have i1 := (hist_op (b := false) op (fun h => by cases h) w i).1
    rcases List.mem_cons.1 hs with rfl | h
    · exact (hist_ops (b := false) (fun h => by cases h) i1).2.first (by simp [runOp, setSolverFirst, modObj, M.modify])
    · exact ih h i1

theorem solverSlab_set {ops : List (Op V)} {w : World V} {s : Solver} (hs : .setSolverSlab s ∈ ops) (i : Inv C w) :
    (runOps C ops w).obj.solverSlab ≠ none := by
  induction ops generalizing w with
  | nil => cases hs
  | cons op ops ih =>
    have i1 := (hist_op (b := false) op (fun h => by cases h) w i).1
    rcases List.mem_cons.1 hs with rfl | h
    · exact (hist_ops (b := false) (fun h => by cases h) i1).2.slab (by simp [runOp, setSolverSlab, modObj, M.modify])
    · exact ih h i1

end Dxss
