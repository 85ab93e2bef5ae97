import Verif.Lemmas.History

/-!
# Computations which do not read a vector

Two runs which start with equal objects and equal vectors, one vector excepted, stay so, as long as that vector is not passed to a call.
-/

namespace Dxss
set_option linter.unusedSectionVars false
variable {V : Type} [AddCommGroup V] [Module ℝ V] {C : Cfg V} {α β : Type}

/-- A vector in the hands of the caller. -/
def Ref.External : Ref → Prop
  | .user _ | .rhs => True
  | _ => False

/-- Equal but for the vector `r`. -/
structure EqOff (r : Ref) (w w' : World V) : Prop where
  obj : w.obj = w'.obj
  heap : ∀ r' ≠ r, w.heap r' = w'.heap r'
  sched : w.sched = w'.sched
  clock : w.clock = w'.clock

/-- The computation does not depend on the vector `r`. -/
def Blind (r : Ref) (x : WM V α) : Prop := ∀ w w', EqOff r w w' → (x w).1 = (x w').1 ∧ EqOff r (x w).2 (x w').2

variable {r : Ref}

theorem Ref.External.ne (hr : r.External) {r' : Ref} (h : ¬ r'.External) : r' ≠ r := fun e => h (e ▸ hr)

namespace Blind

theorem pure (a : α) : Blind r (Pure.pure a : WM V α) := fun _ _ h => ⟨rfl, h⟩
theorem ret (a : α) : Blind r (M.ret a : WM V α) := fun _ _ h => ⟨rfl, h⟩
theorem raise (e : PyErr) : Blind r (M.raise e : WM V α) := fun _ _ h => ⟨rfl, h⟩
theorem lift (x : Py α) : Blind r (M.lift x : WM V α) := fun _ _ h => ⟨rfl, h⟩

theorem bind {x : WM V α} {f : α → WM V β} (hx : Blind r x) (hf : ∀ a, Blind r (f a)) : Blind r (x >>= f) := by
  intro w w' h
  obtain ⟨h1, h2⟩ := hx w w' h
  rw [M.bind_run, M.bind_run]
  rcases e : x w with ⟨r, v⟩
  rcases e' : x w' with ⟨r', v'⟩
  rw [e, e'] at h1 h2
  simp only at h1 h2
  subst h1
  rcases r with _ | a
  · exact ⟨rfl, h2⟩
  · exact hf a v v' h2

theorem bindGet {f : World V → WM V β}
    (h : ∀ w w' : World V, w.obj = w'.obj → (∀ r' ≠ r, w.heap r' = w'.heap r') → f w = f w')
    (hf : ∀ w, Blind r (f w)) : Blind r (M.get >>= f) := by
  intro w w' hs
  have e : ∀ w : World V, (M.get >>= f : WM V β) w = f w w := fun _ => rfl
  rw [e, e, h w w' hs.obj hs.heap]
  exact hf w' w w' hs

theorem attr {f : World V → Option α} (e : PyErr) (h : ∀ w w' : World V, w.obj = w'.obj → f w = f w') :
    Blind r (M.attr f e) := by
  intro w w' hs
  unfold M.attr
  rw [h w w' hs.obj]
  split
  · exact ⟨rfl, hs⟩
  · exact ⟨rfl, hs⟩

theorem ext : Blind r (Dxss.ext : WM V Unit) := by
  intro w w' h
  refine ⟨?_, h.obj, h.heap, h.sched, ?_⟩
  · simp only [Dxss.ext, h.sched, h.clock]
  · simp only [Dxss.ext, h.clock]

theorem modObj (f : Obj V → Obj V) : Blind r (Dxss.modObj f) := fun _ _ h =>
  ⟨rfl, by simp only [Dxss.modObj, M.modify]; rw [h.obj], h.heap, h.sched, h.clock⟩
theorem setVec (r' : Ref) (v : Vec) : Blind r (Dxss.setVec r' v : WM V Unit) := fun w w' h =>
  ⟨rfl, h.obj, fun r'' h' => by
    change Function.update w.heap r' v r'' = Function.update w'.heap r' v r''
    rcases eq_or_ne r'' r' with rfl | h2
    · simp
    · rw [Function.update_of_ne h2, Function.update_of_ne h2, h.heap r'' h'], h.sched, h.clock⟩
theorem getVec {r' : Ref} (hr : r' ≠ r) : Blind r (Dxss.getVec r' : WM V Vec) := fun _ _ h =>
  ⟨by simp only [Dxss.getVec]; rw [h.heap r' hr], h⟩

theorem forList {l : List α} {body : α → WM V Unit} (h : ∀ a, Blind r (body a)) : Blind r (M.forList l body) := by
  induction l with
  | nil => exact .ret _
  | cons a l ih => exact .bind (h a) fun _ => ih

theorem forAcc {l : List α} {body : β → α → WM V β} (h : ∀ b a, Blind r (body b a)) (b : β) : Blind r (M.forAcc l b body) := by
  induction l generalizing b with
  | nil => exact .ret _
  | cons a l ih => exact .bind (h b a) fun _ => ih _

theorem void {x : WM V α} (h : Blind r x) : Blind r x.void := .bind h fun _ => .pure _

theorem ite {c : Prop} [Decidable c] {x y : WM V α} (hx : Blind r x) (hy : Blind r y) : Blind r (if c then x else y) := by
  split
  · exact hx
  · exact hy

end Blind

/-- The vector is another one. -/
macro "ne_tac" : tactic => `(tactic| first
  | assumption
  | exact Ref.External.ne (by assumption) (by simp [Ref.External]))

/-- Decompose a computation into its steps. -/
macro "blind_tac" : tactic => `(tactic| repeat' (first
  | with_reducible exact Blind.ext
  | with_reducible exact Blind.modObj _
  | with_reducible exact Blind.getVec (by ne_tac)
  | with_reducible exact Blind.setVec _ _
  | with_reducible exact Blind.pure _
  | with_reducible exact Blind.ret _
  | with_reducible exact Blind.lift _
  | with_reducible exact Blind.raise _
  | with_reducible exact Blind.attr _ (fun _ _ h => by simp only [h])
  | with_reducible refine Blind.void ?_
  | with_reducible refine Blind.bindGet (fun _ _ h _ => by simp only [h]) ?_
  | with_reducible refine Blind.bind ?_ ?_
  | with_reducible refine Blind.forList ?_
  | with_reducible refine Blind.forAcc ?_ _
  | with_reducible intro _
  | split))

namespace Blind

theorem copyBlock {d s : Ref} (hd : d ≠ r) (hs : s ≠ r) (i i' : List ℕ) : Blind r (Dxss.copyBlock d i s i' : WM V Unit) := by
  unfold Dxss.copyBlock; blind_tac
theorem addBlock {d s : Ref} (hd : d ≠ r) (hs : s ≠ r) (i i' : List ℕ) : Blind r (Dxss.addBlock d i s i' : WM V Unit) := by
  unfold Dxss.addBlock; blind_tac
theorem blockLoop {D : Disc V} {c : Counters} {body : Fin 4 → ℤ → ℕ → WM V Unit} (h : ∀ j i e, Blind r (body j i e)) :
    Blind r (Dxss.blockLoop D c body) := .forList fun _ => .forList fun _ => h _ _ _
theorem slabForM {q qs N : ℕ} {body : Counters → ℕ → WM V Unit} (h : ∀ c n, Blind r (body c n)) :
    Blind r (Dxss.slabForM q qs N body) := .bind (.forAcc (fun _ _ => .bind (h _ _) fun _ => .pure _) _) fun _ => .pure _
theorem matMult {A : World V → Option Mat} (h : ∀ w w' : World V, w.obj = w'.obj → A w = A w') {x : Ref} (hx : x ≠ r) (y : Ref) :
    Blind r (Dxss.matMult A x y) := .bind (.attr _ h) fun _ => .bind (.getVec hx) fun _ => .setVec _ _
theorem runSolver (hr : r.External) (sel : Obj V → Option Solver) {b : Ref} (hb : b ≠ r) : Blind r (Dxss.runSolver sel b) := by
  unfold Dxss.runSolver; blind_tac

end Blind

/-- The same, using the facts about the basic operations. -/
macro "blind_tac'" : tactic => `(tactic| repeat' (first
  | with_reducible exact Blind.copyBlock (by ne_tac) (by ne_tac) _ _
  | with_reducible exact Blind.addBlock (by ne_tac) (by ne_tac) _ _
  | with_reducible exact Blind.matMult (fun _ _ h => by simp only [h]) (by ne_tac) _
  | with_reducible exact Blind.runSolver (by assumption) _ (by ne_tac)
  | with_reducible exact Blind.ext
  | with_reducible exact Blind.modObj _
  | with_reducible exact Blind.getVec (by ne_tac)
  | with_reducible exact Blind.setVec _ _
  | with_reducible exact Blind.pure _
  | with_reducible exact Blind.lift _
  | with_reducible exact Blind.raise _
  | with_reducible exact Blind.attr _ (fun _ _ h => by simp only [h])
  | with_reducible refine Blind.slabForM ?_
  | with_reducible refine Blind.blockLoop ?_
  | with_reducible refine Blind.bind ?_ ?_
  | with_reducible refine Blind.forList ?_
  | with_reducible refine Blind.forAcc ?_ _
  | with_reducible intro _
  | split))

namespace Blind
variable (hr : r.External)
include hr

theorem mfGather {x : Ref} (hx : x ≠ r) (c : Counters) : Blind r (Dxss.mfGather C x c) := by unfold Dxss.mfGather; blind_tac'
theorem mfScatter {x : Ref} (hx : x ≠ r) (c : Counters) : Blind r (Dxss.mfScatter C x c) := by unfold Dxss.mfScatter; blind_tac'
theorem mfCoupGather {x : Ref} (hx : x ≠ r) (c : Counters) : Blind r (Dxss.mfCoupGather (V := V) x c) := by
  unfold Dxss.mfCoupGather; blind_tac'
theorem mfCoupScatter {x : Ref} (hx : x ≠ r) (c : Counters) : Blind r (Dxss.mfCoupScatter (V := V) x c) := by
  unfold Dxss.mfCoupScatter; blind_tac'

theorem apply {x y : Ref} (hx : x ≠ r) (hy : y ≠ r) : Blind r (applySpacetimeMatrix C x y) := by
  refine .bind (.setVec _ _) fun _ => .slabForM fun c n => ?_
  unfold mfBody
  refine .bind (mfGather hr hx c) fun _ => .bind (.matMult (fun _ _ h => by simp only [h]) (by ne_tac) _) fun _ =>
    .bind (mfScatter hr hy c) fun _ => ?_
  split
  · exact .bind (mfCoupGather hr hx c) fun _ => .bind (.matMult (fun _ _ h => by simp only [h]) (by ne_tac) _) fun _ =>
      mfCoupScatter hr hy c
  · exact .pure _

theorem preGather {b d : Ref} (hb : b ≠ r) (hd : d ≠ r) (c : Counters) : Blind r (Dxss.preGather C b d c) := by
  unfold Dxss.preGather; blind_tac'
theorem preWrite {x : Ref} (hx : x ≠ r) (c : Counters) : Blind r (Dxss.preWrite C x c) := by unfold Dxss.preWrite; blind_tac'
theorem preSolve {b : Ref} (hb : b ≠ r) (n : ℕ) : Blind r (Dxss.preSolve (V := V) b n) :=
  .ite (.runSolver hr _ hb) (.runSolver hr _ hb)
theorem preCarry : Blind r (Dxss.preCarry C) := by unfold Dxss.preCarry; blind_tac'

theorem preImproved {b x : Ref} (hb : b ≠ r) (hx : x ≠ r) : Blind r (preTimeMarchingImproved C b x) := by
  have h : Blind r (Dxss.slabForM C.D.q C.D.qstar C.D.N (preBody C b x)) := .slabForM fun c n =>
    .bind (preGather hr hb (by ne_tac) c) fun _ => .bind (preSolve hr (by ne_tac) n) fun _ => .bind (preCarry hr) fun _ =>
      preWrite hr hx c
  unfold preTimeMarchingImproved
  split
  · exact .bind (.raise _) fun _ => .bind (.attr _ fun _ _ h => by simp only [h]) fun _ => .bind (.setVec _ _) fun _ => h
  · exact .bind (.attr _ fun _ _ h => by simp only [h]) fun _ => .bind (.setVec _ _) fun _ => h

omit hr in
theorem copyTop {d s : Ref} (hs : s ≠ r) (i : List ℕ) : Blind r (Dxss.copyTop d s i : WM V Unit) := by
  unfold Dxss.copyTop; blind_tac

theorem pre {b x : Ref} (hb : b ≠ r) (hx : x ≠ r) : Blind r (preTimeMarching C b x) :=
  .bind (.attr _ fun _ _ h => by simp only [h]) fun _ => .slabForM fun c n =>
    .bind (.getVec (by ne_tac)) fun _ => .bind (.getVec (by ne_tac)) fun _ => .bind (.setVec _ _) fun _ =>
    .bind (preGather hr hb (by ne_tac) c) fun _ =>
    .bind (preSolve hr (by ne_tac) n) fun _ => .bind (.attr _ fun _ _ h => by simp only [h]) fun _ => .bind (.lift _) fun _ =>
    .bind (copyTop (by ne_tac) _) fun _ => .bind (.lift _) fun _ => .bind (copyTop (by ne_tac) _) fun _ => preWrite hr hx c

omit hr

theorem setupRhs : Blind r (Dxss.setupRhs C) := by unfold Dxss.setupRhs; blind_tac
theorem setupSlab (j : Bool) : Blind r (setupSlabMatrix C j) := by unfold setupSlabMatrix; blind_tac
theorem setupCoupling : Blind r (Dxss.setupCoupling C) := by unfold Dxss.setupCoupling; blind_tac
theorem setupScaledMass : Blind r (Dxss.setupScaledMass C) := by unfold Dxss.setupScaledMass; blind_tac
theorem setupMatrix (p : Bool) : Blind r (setupSpacetimeMatrix C p) := by unfold setupSpacetimeMatrix; blind_tac

theorem guarded {c : Obj V → Bool} {x : WM V Unit} {y : WM V α} (hx : Blind r x) (hy : Blind r y) : Blind r (do
      let w ← M.get
      if c w.obj then x
      y) := by
  refine .bindGet (fun w w' h _ => by simp only [h]) fun w => ?_
  split
  · exact .bind hx fun _ => hy
  · exact hy

theorem prepare : Blind r (prepareGmres C) := by
  have k4 : Blind r (do
      let w ← M.get
      if w.obj.bndMat.isNone then Dxss.setupScaledMass C : WM V Unit) :=
    .bindGet (fun _ _ h _ => by simp only [h]) fun _ => .ite setupScaledMass (.pure _)
  have k2 := guarded (c := fun o => o.firstMat.isNone && !C.D.wellPosed) (setupSlab (r := r) (C := C) false)
    (guarded (c := fun o => o.coupMat.isNone) (setupCoupling (C := C))
      (guarded (c := fun o => o.rhs.isNone) (setupRhs (C := C)) k4))
  unfold prepareGmres
  refine .bindGet (fun _ _ h _ => by simp only [h]) fun _ => ?_
  split
  · exact .bind (setupSlab true) fun _ => .bind .ext fun _ => .bind (.modObj _) fun _ => .bind (.setVec _ _) fun _ => k2
  · exact k2

theorem getMatrix (p : Bool) : Blind r (getSpacetimeMatrix C p) := by
  refine .bindGet (fun _ _ h _ => by simp only [h]) fun w => ?_
  split
  · exact .pure _
  · exact .bind (setupMatrix p) fun _ => .bind (.modObj _) fun _ => .bind (.modObj _) fun _ => .pure _

theorem getBfi (p : Bool) : Blind r (getSpacetimeBfi C p) := by
  refine .bindGet (fun _ _ h _ => by simp only [h]) fun w => ?_
  split
  · exact .pure _
  · exact .bind (setupMatrix p) fun _ => .bind (.modObj _) fun _ => .bind (.modObj _) fun _ => .pure _

theorem getRhs : Blind r (getSpacetimeRhs C) := guarded (c := fun o => o.rhs.isNone) setupRhs (.pure _)
theorem getLfi : Blind r (getSpacetimeLfi C) :=
  guarded (c := fun o => o.lfi.isNone) setupRhs (.attr _ fun _ _ h => by simp only [h])

theorem getSlabBfi : Blind r (Dxss.getSlabBfi C) := by
  have h : Blind r (do let w ← M.get; return w.obj.slabBfi : WM V (Option (List Term))) :=
    .bindGet (fun _ _ h _ => by simp only [h]) fun _ => .pure _
  refine .bindGet (fun _ _ h _ => by simp only [h]) fun w => ?_
  split
  · exact .bind (setupSlab true) fun _ => .bind (setupSlab false) fun _ => h
  · exact h

theorem getSlabMatrix : Blind r (Dxss.getSlabMatrix C) := by
  have h : Blind r (do let w ← M.get; return w.obj.slabMat : WM V (Option Mat)) :=
    .bindGet (fun _ _ h _ => by simp only [h]) fun _ => .pure _
  refine .bindGet (fun _ _ h _ => by simp only [h]) fun w => ?_
  split
  · exact .bind (setupSlab true) fun _ => .bind (setupSlab false) fun _ => h
  · exact h

theorem getFirstBfi : Blind r (getSlabBfiFirst (V := V)) := fun _ _ h => ⟨by simp only [getSlabBfiFirst, h.obj], h⟩
theorem getFirstMatrix : Blind r (getSlabMatrixFirst (V := V)) := fun _ _ h => ⟨by simp only [getSlabMatrixFirst, h.obj], h⟩
theorem getMatrixCoarse : Blind r (getSpacetimeMatrixCoarse (V := V)) := fun _ _ h =>
  ⟨by simp only [getSpacetimeMatrixCoarse, h.obj], h⟩

theorem loadFinal (hr : r.External) {u : Ref} (hu : u ≠ r) : Blind r (Dxss.loadFinal C u) := by
  unfold Dxss.loadFinal; blind_tac

theorem errors (hr : r.External) {u : Ref} (hu : u ≠ r) : Blind r (measuredErrors C u) := by
  have hb : ∀ b n, Blind r (errBody C b n) := fun b n => by
    unfold errBody
    refine .bind (by unfold errLoad; blind_tac' <;> exact copyTop (by ne_tac) _) fun _ => .bind (.getVec (by ne_tac)) fun m =>
      .bindGet (fun w w' _ h => ?_) fun w => .bind (by unfold errQuad; blind_tac') fun _ =>
      .bind (by unfold errSamples; blind_tac') fun _ => .pure _
    have : ∀ j, w.heap (.u1Slab j) = w'.heap (.u1Slab j) := fun j => h _ (by ne_tac)
    simp only [this]
  exact .bind (loadFinal hr hu) fun _ => .bind .ext fun _ => .bind (.attr _ fun _ _ h => by simp only [h]) fun _ =>
    .bind (.forAcc hb _) fun _ => .bind (.lift _) fun _ => .bind (.lift _) fun _ => .bind (.lift _) fun _ => .pure _

theorem prolongation (hr : r.External) {x y : Ref} (hx : x ≠ r) (hy : y ≠ r) : Blind r (Dxss.prolongation C x y) := by
  unfold Dxss.prolongation; blind_tac'
theorem restriction (hr : r.External) {x y : Ref} (hx : x ≠ r) (hy : y ≠ r) : Blind r (Dxss.restriction C x y) := by
  unfold Dxss.restriction; blind_tac'

theorem qOp (hr : r.External) {b x : Ref} (hb : b ≠ r) (hx : x ≠ r) : Blind r (Dxss.qOp C b x) :=
  .bind (.attr _ fun _ _ h => by simp only [h]) fun _ => .bind (restriction hr (by ne_tac) (by ne_tac)) fun _ =>
    .bind (.attr _ fun _ _ h => by simp only [h]) fun _ => .bind (.getVec (by ne_tac)) fun _ => .bind (.getVec (by ne_tac)) fun _ =>
    .bind (.setVec _ _) fun _ => .bind (.lift _) fun _ => prolongation hr (by ne_tac) (by ne_tac)

theorem preTwolvl (b x : Ref) : Blind r (Dxss.preTwolvl C b x) := fun _ _ h => ⟨rfl, h⟩

end Blind

/-- The vectors of the caller involved in a call. -/
def Op.Involves (op : Op V) (r : Ref) : Prop :=
  match op with
  | .apply x y | .pre x y | .preImproved x y | .qOp x y | .preTwolvl x y | .slabMult x y | .coupMult x y | .prolongation x y => x.ref = r ∨ .user y = r
  | .restriction y x => x.ref = r ∨ .user y = r
  | .errors x | .paraView x | .plot x => x.ref = r
  | .write k _ => .user k = r
  | _ => False

theorem blind_op (hr : r.External) (op : Op V) (h : ¬ op.Involves r) : Blind r (runOp C op) := by
  cases op with
  | setupFE => unfold runOp setupFE; blind_tac
  | getMatrix p => exact .void (.getMatrix p)
  | getBfi p => exact .void (.getBfi p)
  | getRhs => exact .void .getRhs
  | getLfi => exact .void .getLfi
  | getSlabBfi => exact .void .getSlabBfi
  | getSlabMatrix => exact .void .getSlabMatrix
  | getFirstBfi => exact .void .getFirstBfi
  | getFirstMatrix => exact .void .getFirstMatrix
  | setSolverFirst s => exact .modObj _
  | setSolverSlab s => exact .modObj _
  | prepare => exact .prepare
  | apply x y => exact .apply hr (fun e => h (.inl e)) (fun e => h (.inr e))
  | pre b x => exact .pre hr (fun e => h (.inl e)) (fun e => h (.inr e))
  | preImproved b x => exact .preImproved hr (fun e => h (.inl e)) (fun e => h (.inr e))
  | errors u => exact .void (.errors hr h)
  | paraView u => exact .bind (.loadFinal hr h) fun _ => .ext
  | prepareCoarse K => unfold runOp Dxss.prepareCoarse; blind_tac
  | setSolverCoarse s => exact .modObj _
  | qOp b x => exact .qOp hr (fun e => h (.inl e)) (fun e => h (.inr e))
  | preTwolvl b x => exact .preTwolvl _ _
  | setupSlab j => exact .setupSlab j
  | setupCoupling => exact .setupCoupling
  | setupScaledMass => exact .setupScaledMass
  | setupRhs => exact .setupRhs
  | setInitial u v => unfold runOp Dxss.setInitial; blind_tac
  | setupMatrix p => exact .void (.setupMatrix p)
  | slabMult x y => exact .matMult (fun _ _ h => by simp only [h]) (fun e => h (.inl e)) _
  | coupMult x y => exact .matMult (fun _ _ h => by simp only [h]) (fun e => h (.inl e)) _
  | getMatrixCoarse => exact .void .getMatrixCoarse
  | prolongation x y => exact .prolongation hr (fun e => h (.inl e)) (fun e => h (.inr e))
  | restriction y x => exact .restriction hr (fun e => h (.inr e)) (fun e => h (.inl e))
  | plot u =>
    have hu : u.ref ≠ r := h
    unfold runOp Dxss.plot; blind_tac
  | write k v => exact .setVec _ _

/-- Whole call sequences. -/
theorem EqOff.ops (hr : r.External) {w w' : World V} (h : EqOff r w w') {ops : List (Op V)} (hops : ∀ op ∈ ops, ¬ op.Involves r) :
    EqOff r (runOps C ops w) (runOps C ops w') := by
  induction ops generalizing w w' with
  | nil => exact h
  | cons op ops ih => exact ih (blind_op hr op (hops op (by simp)) w w' h).2 fun op h => hops op (by simp [h])

end Dxss
