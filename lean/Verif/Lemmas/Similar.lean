import Verif.Lemmas.History

/-!
# Two objects in the same state behave alike

All computations read the object and the vectors only; the schedule of failures matters from the present on.
-/

namespace Dxss
set_option linter.unusedSectionVars false
variable {V : Type} [AddCommGroup V] [Module ℝ V] {C : Cfg V} {α β : Type}

/-- Same object, same vectors, and the same operations will fail from now on. -/
structure Sim (w w' : World V) : Prop where
  obj : w.obj = w'.obj
  heap : w.heap = w'.heap
  sched : ∀ j, w.sched (w.clock + j) = w'.sched (w'.clock + j)

theorem Sim.refl (w : World V) : Sim w w := ⟨rfl, rfl, fun _ => rfl⟩

theorem Sim.of_noFail {w w' : World V} (ho : w.obj = w'.obj) (hh : w.heap = w'.heap) (h : w.NoFail) (h' : w'.NoFail) :
    Sim w w' := ⟨ho, hh, fun j => by rw [h _ (Nat.le_add_right _ _), h' _ (Nat.le_add_right _ _)]⟩

/-- From similar states the computation has the same outcome and leads to similar states. -/
def Unif (x : WM V α) : Prop := ∀ w w', Sim w w' → (x w).1 = (x w').1 ∧ Sim (x w).2 (x w').2

namespace Unif

theorem pure (a : α) : Unif (Pure.pure a : WM V α) := fun _ _ h => ⟨rfl, h⟩
theorem ret (a : α) : Unif (M.ret a : WM V α) := fun _ _ h => ⟨rfl, h⟩
theorem raise (e : PyErr) : Unif (M.raise e : WM V α) := fun _ _ h => ⟨rfl, h⟩
theorem lift (x : Py α) : Unif (M.lift x : WM V α) := fun _ _ h => ⟨rfl, h⟩

theorem bind {x : WM V α} {f : α → WM V β} (hx : Unif x) (hf : ∀ a, Unif (f a)) : Unif (x >>= f) := by
  intro w w' h
  obtain ⟨h1, h2⟩ := hx w w' h
  rw [M.bind_run, M.bind_run]
  rcases e : x w with ⟨r, v⟩
  rcases e' : x w' with ⟨r', v'⟩
  rw [e, e'] at h1 h2
  simp only at h1 h2
  subst h1
  rcases r with _ | a
  · exact ⟨rfl, h2⟩
  · exact hf a v v' h2

theorem bindGet {f : World V → WM V β} (h : ∀ w w' : World V, w.obj = w'.obj → w.heap = w'.heap → f w = f w')
    (hf : ∀ w, Unif (f w)) : Unif (M.get >>= f) := by
  intro w w' hs
  have e : ∀ w : World V, (M.get >>= f : WM V β) w = f w w := fun _ => rfl
  rw [e, e, h w w' hs.obj hs.heap]
  exact hf w' w w' hs

theorem attr {f : World V → Option α} (e : PyErr) (h : ∀ w w' : World V, w.obj = w'.obj → f w = f w') :
    Unif (M.attr f e) := by
  intro w w' hs
  unfold M.attr
  rw [h w w' hs.obj]
  split
  · exact ⟨rfl, hs⟩
  · exact ⟨rfl, hs⟩

theorem ext : Unif (Dxss.ext : WM V Unit) := by
  intro w w' h
  have h0 := h.sched 0
  simp only [Nat.add_zero] at h0
  refine ⟨?_, h.obj, h.heap, fun j => ?_⟩
  · simp only [Dxss.ext, h0]
  · have := h.sched (1 + j)
    simpa [Dxss.ext, Nat.add_assoc] using this

theorem modObj (f : Obj V → Obj V) : Unif (Dxss.modObj f) := fun _ _ h =>
  ⟨rfl, by simp only [Dxss.modObj, M.modify]; rw [h.obj], h.heap, h.sched⟩
theorem setVec (r : Ref) (v : Vec) : Unif (Dxss.setVec r v : WM V Unit) := fun _ _ h =>
  ⟨rfl, h.obj, by simp only [Dxss.setVec, M.modify]; rw [h.heap], h.sched⟩
theorem getVec (r : Ref) : Unif (Dxss.getVec r : WM V Vec) := fun _ _ h =>
  ⟨by simp only [Dxss.getVec]; rw [h.heap], h⟩

theorem forList {l : List α} {body : α → WM V Unit} (h : ∀ a, Unif (body a)) : Unif (M.forList l body) := by
  induction l with
  | nil => exact .ret _
  | cons a l ih => exact .bind (h a) fun _ => ih

theorem forAcc {l : List α} {body : β → α → WM V β} (h : ∀ b a, Unif (body b a)) (b : β) : Unif (M.forAcc l b body) := by
  induction l generalizing b with
  | nil => exact .ret _
  | cons a l ih => exact .bind (h b a) fun _ => ih _

theorem void {x : WM V α} (h : Unif x) : Unif x.void := .bind h fun _ => .pure _

theorem ite {c : Prop} [Decidable c] {x y : WM V α} (hx : Unif x) (hy : Unif y) : Unif (if c then x else y) := by
  split
  · exact hx
  · exact hy

end Unif

/-- Decompose a computation into its steps. -/
macro "unif_tac" : tactic => `(tactic| repeat' (first
  | with_reducible exact Unif.ext
  | with_reducible exact Unif.modObj _
  | with_reducible exact Unif.getVec _
  | with_reducible exact Unif.setVec _ _
  | with_reducible exact Unif.pure _
  | with_reducible exact Unif.ret _
  | with_reducible exact Unif.lift _
  | with_reducible exact Unif.raise _
  | with_reducible exact Unif.attr _ (fun _ _ h => by simp only [h])
  | with_reducible refine Unif.void ?_
  | with_reducible refine Unif.bindGet (fun _ _ h _ => by simp only [h]) ?_
  | with_reducible refine Unif.bind ?_ ?_
  | with_reducible refine Unif.forList ?_
  | with_reducible refine Unif.forAcc ?_ _
  | with_reducible intro _
  | split))

namespace Unif

theorem copyBlock (d : Ref) (i : List ℕ) (s : Ref) (i' : List ℕ) : Unif (Dxss.copyBlock d i s i' : WM V Unit) := by
  unfold Dxss.copyBlock; unif_tac
theorem addBlock (d : Ref) (i : List ℕ) (s : Ref) (i' : List ℕ) : Unif (Dxss.addBlock d i s i' : WM V Unit) := by
  unfold Dxss.addBlock; unif_tac
theorem blockLoop {D : Disc V} {c : Counters} {body : Fin 4 → ℤ → ℕ → WM V Unit} (h : ∀ j i e, Unif (body j i e)) :
    Unif (Dxss.blockLoop D c body) := .forList fun _ => .forList fun _ => h _ _ _
theorem slabForM {q qs N : ℕ} {body : Counters → ℕ → WM V Unit} (h : ∀ c n, Unif (body c n)) :
    Unif (Dxss.slabForM q qs N body) := .bind (.forAcc (fun _ _ => .bind (h _ _) fun _ => .pure _) _) fun _ => .pure _
theorem matMult {A : World V → Option Mat} (h : ∀ w w' : World V, w.obj = w'.obj → A w = A w') (x y : Ref) :
    Unif (Dxss.matMult A x y) := .bind (.attr _ h) fun _ => .bind (.getVec _) fun _ => .setVec _ _
theorem runSolver (sel : Obj V → Option Solver) (r : Ref) : Unif (Dxss.runSolver sel r) := by
  unfold Dxss.runSolver; unif_tac

end Unif

/-- The same, using the facts about the basic operations. -/
macro "unif_tac'" : tactic => `(tactic| repeat' (first
  | with_reducible exact Unif.copyBlock _ _ _ _
  | with_reducible exact Unif.addBlock _ _ _ _
  | with_reducible exact Unif.matMult (fun _ _ h => by simp only [h]) _ _
  | with_reducible exact Unif.runSolver _ _
  | with_reducible exact Unif.ext
  | with_reducible exact Unif.modObj _
  | with_reducible exact Unif.getVec _
  | with_reducible exact Unif.setVec _ _
  | with_reducible exact Unif.pure _
  | with_reducible exact Unif.lift _
  | with_reducible exact Unif.raise _
  | with_reducible exact Unif.attr _ (fun _ _ h => by simp only [h])
  | with_reducible refine Unif.slabForM ?_
  | with_reducible refine Unif.blockLoop ?_
  | with_reducible refine Unif.bind ?_ ?_
  | with_reducible refine Unif.forList ?_
  | with_reducible refine Unif.forAcc ?_ _
  | with_reducible intro _
  | split))

namespace Unif

theorem mfGather (x : Ref) (c : Counters) : Unif (Dxss.mfGather C x c) := by unfold Dxss.mfGather; unif_tac'
theorem mfScatter (x : Ref) (c : Counters) : Unif (Dxss.mfScatter C x c) := by unfold Dxss.mfScatter; unif_tac'
theorem mfCoupGather (x : Ref) (c : Counters) : Unif (Dxss.mfCoupGather (V := V) x c) := by
  unfold Dxss.mfCoupGather; unif_tac'
theorem mfCoupScatter (x : Ref) (c : Counters) : Unif (Dxss.mfCoupScatter (V := V) x c) := by
  unfold Dxss.mfCoupScatter; unif_tac'

theorem apply (x y : Ref) : Unif (applySpacetimeMatrix C x y) := by
  refine .bind (.setVec _ _) fun _ => .slabForM fun c n => ?_
  unfold mfBody
  refine .bind (mfGather x c) fun _ => .bind (.matMult (fun _ _ h => by simp only [h]) _ _) fun _ =>
    .bind (mfScatter y c) fun _ => ?_
  split
  · exact .bind (mfCoupGather x c) fun _ => .bind (.matMult (fun _ _ h => by simp only [h]) _ _) fun _ => mfCoupScatter y c
  · exact .pure _

theorem preGather (b d : Ref) (c : Counters) : Unif (Dxss.preGather C b d c) := by unfold Dxss.preGather; unif_tac'
theorem preWrite (x : Ref) (c : Counters) : Unif (Dxss.preWrite C x c) := by unfold Dxss.preWrite; unif_tac'
theorem preSolve (r : Ref) (n : ℕ) : Unif (Dxss.preSolve (V := V) r n) := .ite (.runSolver _ _) (.runSolver _ _)
theorem preCarry : Unif (Dxss.preCarry C) := by unfold Dxss.preCarry; unif_tac'

theorem preImproved (b x : Ref) : Unif (preTimeMarchingImproved C b x) := by
  have h : Unif (Dxss.slabForM C.D.q C.D.qstar C.D.N (preBody C b x)) := .slabForM fun c n =>
    .bind (preGather b _ c) fun _ => .bind (preSolve _ n) fun _ => .bind preCarry fun _ => preWrite x c
  unfold preTimeMarchingImproved
  split
  · exact .bind (.raise _) fun _ => .bind (.attr _ fun _ _ h => by simp only [h]) fun _ => .bind (.setVec _ _) fun _ => h
  · exact .bind (.attr _ fun _ _ h => by simp only [h]) fun _ => .bind (.setVec _ _) fun _ => h

theorem copyTop (d s : Ref) (i : List ℕ) : Unif (Dxss.copyTop d s i : WM V Unit) := by unfold Dxss.copyTop; unif_tac

theorem pre (b x : Ref) : Unif (preTimeMarching C b x) :=
  .bind (.attr _ fun _ _ h => by simp only [h]) fun _ => .slabForM fun c n =>
    .bind (.getVec _) fun _ => .bind (.getVec _) fun _ => .bind (.setVec _ _) fun _ => .bind (preGather b _ c) fun _ =>
    .bind (preSolve _ n) fun _ => .bind (.attr _ fun _ _ h => by simp only [h]) fun _ => .bind (.lift _) fun _ =>
    .bind (copyTop _ _ _) fun _ => .bind (.lift _) fun _ => .bind (copyTop _ _ _) fun _ => preWrite x c

theorem setupRhs : Unif (Dxss.setupRhs C) := by unfold Dxss.setupRhs; unif_tac
theorem setupSlab (j : Bool) : Unif (setupSlabMatrix C j) := by unfold setupSlabMatrix; unif_tac
theorem setupCoupling : Unif (Dxss.setupCoupling C) := by unfold Dxss.setupCoupling; unif_tac
theorem setupScaledMass : Unif (Dxss.setupScaledMass C) := by unfold Dxss.setupScaledMass; unif_tac
theorem setupMatrix (p : Bool) : Unif (setupSpacetimeMatrix C p) := by unfold setupSpacetimeMatrix; unif_tac

theorem guarded {c : Obj V → Bool} {x : WM V Unit} {y : WM V α} (hx : Unif x) (hy : Unif y) : Unif (do
      let w ← M.get
      if c w.obj then x
      y) := by
  refine .bindGet (fun w w' h _ => by simp only [h]) fun w => ?_
  split
  · exact .bind hx fun _ => hy
  · exact hy

theorem prepare : Unif (prepareGmres C) := by
  have k4 : Unif (do
      let w ← M.get
      if w.obj.bndMat.isNone then Dxss.setupScaledMass C : WM V Unit) :=
    .bindGet (fun _ _ h _ => by simp only [h]) fun _ => .ite setupScaledMass (.pure _)
  have k2 := guarded (c := fun o => o.firstMat.isNone && !C.D.wellPosed) (setupSlab (C := C) false)
    (guarded (c := fun o => o.coupMat.isNone) (setupCoupling (C := C))
      (guarded (c := fun o => o.rhs.isNone) (setupRhs (C := C)) k4))
  unfold prepareGmres
  refine .bindGet (fun _ _ h _ => by simp only [h]) fun _ => ?_
  split
  · exact .bind (setupSlab true) fun _ => .bind .ext fun _ => .bind (.modObj _) fun _ => .bind (.setVec _ _) fun _ => k2
  · exact k2

theorem getMatrix (p : Bool) : Unif (getSpacetimeMatrix C p) := by
  refine .bindGet (fun _ _ h _ => by simp only [h]) fun w => ?_
  split
  · exact .pure _
  · exact .bind (setupMatrix p) fun _ => .bind (.modObj _) fun _ => .bind (.modObj _) fun _ => .pure _

theorem getBfi (p : Bool) : Unif (getSpacetimeBfi C p) := by
  refine .bindGet (fun _ _ h _ => by simp only [h]) fun w => ?_
  split
  · exact .pure _
  · exact .bind (setupMatrix p) fun _ => .bind (.modObj _) fun _ => .bind (.modObj _) fun _ => .pure _

theorem getRhs : Unif (getSpacetimeRhs C) := guarded (c := fun o => o.rhs.isNone) setupRhs (.pure _)
theorem getLfi : Unif (getSpacetimeLfi C) :=
  guarded (c := fun o => o.lfi.isNone) setupRhs (.attr _ fun _ _ h => by simp only [h])

theorem getSlabBfi : Unif (Dxss.getSlabBfi C) := by
  have h : Unif (do let w ← M.get; return w.obj.slabBfi : WM V (Option (List Term))) :=
    .bindGet (fun _ _ h _ => by simp only [h]) fun _ => .pure _
  refine .bindGet (fun _ _ h _ => by simp only [h]) fun w => ?_
  split
  · exact .bind (setupSlab true) fun _ => .bind (setupSlab false) fun _ => h
  · exact h

theorem getSlabMatrix : Unif (Dxss.getSlabMatrix C) := by
  have h : Unif (do let w ← M.get; return w.obj.slabMat : WM V (Option Mat)) :=
    .bindGet (fun _ _ h _ => by simp only [h]) fun _ => .pure _
  refine .bindGet (fun _ _ h _ => by simp only [h]) fun w => ?_
  split
  · exact .bind (setupSlab true) fun _ => .bind (setupSlab false) fun _ => h
  · exact h

theorem getFirstBfi : Unif (getSlabBfiFirst (V := V)) := fun _ _ h => ⟨by simp only [getSlabBfiFirst, h.obj], h⟩
theorem getFirstMatrix : Unif (getSlabMatrixFirst (V := V)) := fun _ _ h => ⟨by simp only [getSlabMatrixFirst, h.obj], h⟩
theorem getMatrixCoarse : Unif (getSpacetimeMatrixCoarse (V := V)) := fun _ _ h =>
  ⟨by simp only [getSpacetimeMatrixCoarse, h.obj], h⟩

theorem loadFinal (u : Ref) : Unif (Dxss.loadFinal C u) := by unfold Dxss.loadFinal; unif_tac

theorem errors (u : Ref) : Unif (measuredErrors C u) := by
  have hb : ∀ b n, Unif (errBody C b n) := fun b n => by
    unfold errBody
    refine .bind (by unfold errLoad; unif_tac' <;> exact copyTop _ _ _) fun _ => .bind (.getVec _) fun m =>
      .bindGet (fun _ _ _ h => by simp only [h]) fun w => .bind (by unfold errQuad; unif_tac') fun _ =>
      .bind (by unfold errSamples; unif_tac') fun _ => .pure _
  exact .bind (loadFinal u) fun _ => .bind .ext fun _ => .bind (.attr _ fun _ _ h => by simp only [h]) fun _ =>
    .bind (.forAcc hb _) fun _ => .bind (.lift _) fun _ => .bind (.lift _) fun _ => .bind (.lift _) fun _ => .pure _

theorem prolongation (x y : Ref) : Unif (Dxss.prolongation C x y) := by unfold Dxss.prolongation; unif_tac'
theorem restriction (x y : Ref) : Unif (Dxss.restriction C x y) := by unfold Dxss.restriction; unif_tac'

theorem qOp (b x : Ref) : Unif (Dxss.qOp C b x) :=
  .bind (.attr _ fun _ _ h => by simp only [h]) fun _ => .bind (restriction _ _) fun _ =>
    .bind (.attr _ fun _ _ h => by simp only [h]) fun _ => .bind (.getVec _) fun _ => .bind (.getVec _) fun _ =>
    .bind (.setVec _ _) fun _ => .bind (.lift _) fun _ => prolongation _ _

theorem preTwolvl (b x : Ref) : Unif (Dxss.preTwolvl C b x) :=
  .bind (.raise _) fun _ => .bind (.attr _ fun _ _ h => by simp only [h]) fun _ => .bind (apply _ _) fun _ =>
    .bind (.getVec _) fun _ => .bind (.setVec _ _) fun _ => .bind (.getVec _) fun _ => .bind (.getVec _) fun _ =>
    .bind (.setVec _ _) fun _ => .bind (pre _ _) fun _ => .bind (.getVec _) fun _ => .bind (.setVec _ _) fun _ =>
    .bind (.getVec _) fun _ => .bind (.getVec _) fun _ => .setVec _ _

end Unif

theorem unif_op (op : Op V) : Unif (runOp C op) := by
  cases op with
  | setupFE => unfold runOp setupFE; unif_tac
  | getMatrix p => exact .void (.getMatrix p)
  | getBfi p => exact .void (.getBfi p)
  | getRhs => exact .void .getRhs
  | getLfi => exact .void .getLfi
  | getSlabBfi => exact .void .getSlabBfi
  | getSlabMatrix => exact .void .getSlabMatrix
  | getFirstBfi => exact .void .getFirstBfi
  | getFirstMatrix => exact .void .getFirstMatrix
  | setSolverFirst s => exact .modObj _
  | setSolverSlab s => exact .modObj _
  | prepare => exact .prepare
  | apply x y => exact .apply _ _
  | pre b x => exact .pre _ _
  | preImproved b x => exact .preImproved _ _
  | errors u => exact .void (.errors _)
  | paraView u => exact .bind (.loadFinal _) fun _ => .ext
  | prepareCoarse K => unfold runOp Dxss.prepareCoarse; unif_tac
  | setSolverCoarse s => exact .modObj _
  | qOp b x => exact .qOp _ _
  | preTwolvl b x => exact .preTwolvl _ _
  | setupSlab j => exact .setupSlab j
  | setupCoupling => exact .setupCoupling
  | setupScaledMass => exact .setupScaledMass
  | setupRhs => exact .setupRhs
  | setInitial u v => unfold runOp Dxss.setInitial; unif_tac
  | setupMatrix p => exact .void (.setupMatrix p)
  | slabMult x y => exact .matMult (fun _ _ h => by simp only [h]) _ _
  | coupMult x y => exact .matMult (fun _ _ h => by simp only [h]) _ _
  | getMatrixCoarse => exact .void .getMatrixCoarse
  | prolongation x y => exact .prolongation _ _
  | restriction x y => exact .restriction _ _
  | plot u => unfold runOp Dxss.plot; unif_tac
  | write k v => exact .setVec _ _

/-- Whole call sequences keep similarity. -/
theorem Sim.ops {w w' : World V} (h : Sim w w') (ops : List (Op V)) : Sim (runOps C ops w) (runOps C ops w') := by
  induction ops generalizing w w' with
  | nil => exact h
  | cons op ops ih => exact ih (unif_op op w w' h).2

end Dxss
