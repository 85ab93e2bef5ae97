import Verif.Lemmas.Similar
import Verif.Props.Setup
import Verif.Lemmas.Frame

/-!
# Property C87: repeating a failed preparation, seen from outside
-/

namespace Dxss
set_option linter.unusedSectionVars false
variable {V : Type} [AddCommGroup V] [Module ℝ V] {C : Cfg V}

/-- No observation distinguishes the two objects: every call has the same outcome, every request returns the same, and
the caller's vectors are equal, now and after any sequence of calls. -/
def Indistinguishable (C : Cfg V) (a b : World V) : Prop :=
  ∀ ops : List (Op V),
    (∀ op, (runOp C op (runOps C ops a)).1 = (runOp C op (runOps C ops b)).1) ∧
    (∀ x : InVec, (runOps C ops a).heap x.ref = (runOps C ops b).heap x.ref) ∧
    (∀ p, (getSpacetimeMatrix C p (runOps C ops a)).1 = (getSpacetimeMatrix C p (runOps C ops b)).1) ∧
    (∀ p, (getSpacetimeBfi C p (runOps C ops a)).1 = (getSpacetimeBfi C p (runOps C ops b)).1) ∧
    (getSpacetimeLfi C (runOps C ops a)).1 = (getSpacetimeLfi C (runOps C ops b)).1 ∧
    (getSlabMatrix C (runOps C ops a)).1 = (getSlabMatrix C (runOps C ops b)).1 ∧
    (getSlabBfi C (runOps C ops a)).1 = (getSlabBfi C (runOps C ops b)).1 ∧
    (getSlabMatrixFirst (runOps C ops a)).1 = (getSlabMatrixFirst (runOps C ops b)).1 ∧
    (getSlabBfiFirst (runOps C ops a)).1 = (getSlabBfiFirst (runOps C ops b)).1 ∧
    (getSpacetimeMatrixCoarse (runOps C ops a)).1 = (getSpacetimeMatrixCoarse (runOps C ops b)).1 ∧
    (∀ u : InVec, (measuredErrors C u.ref (runOps C ops a)).1 = (measuredErrors C u.ref (runOps C ops b)).1)

theorem Sim.indistinguishable {a b : World V} (h : Sim a b) : Indistinguishable C a b := by
  intro ops
  have s := h.ops (C := C) ops
  exact ⟨fun op => (unif_op op _ _ s).1, fun x => congrFun s.heap _, fun p => (Unif.getMatrix p _ _ s).1,
    fun p => (Unif.getBfi p _ _ s).1, (Unif.getLfi _ _ s).1, (Unif.getSlabMatrix _ _ s).1, (Unif.getSlabBfi _ _ s).1,
    (Unif.getFirstMatrix _ _ s).1, (Unif.getFirstBfi _ _ s).1, (Unif.getMatrixCoarse _ _ s).1,
    fun u => (Unif.errors _ _ _ s).1⟩

/-- Calls by which the caller sets initial data or fills their own vectors. -/
def Op.Data : Op V → Prop
  | .setInitial _ _ | .write _ _ => True
  | _ => False

/-- The same world in which nothing fails. -/
def World.undisturbed (w : World V) : World V := { w with sched := fun _ => false }

/-- The full statement of C87: whichever external operation of `prepare_precondition_gmres` fails, after a repeated
call the object cannot be told from one whose preparation was not disturbed.  It is false, see `C87_violated`. -/
def C87_statement (V : Type) [AddCommGroup V] [Module ℝ V] : Prop :=
  ∀ (C : Cfg V) (w₀ : World V) (data : List (Op V)) (k : ℕ), C.Ok → w₀.Fresh → (∀ op ∈ data, op.Data) →
    w₀.FailsAt (1 + k) → (runOp C .prepare (runOps C (.setupFE :: data) w₀)).1 ≠ .ok () →
    Indistinguishable C (runOps C (.setupFE :: data ++ [.prepare, .prepare]) w₀)
      (runOps C (.setupFE :: data ++ [.prepare]) w₀.undisturbed)

/-! ## The state before the preparation -/

theorem data_step {op : Op V} (h : op.Data) {w : World V} {u v : V} (ho : w.obj = setUpObj C u v) :
    ∃ u' v', (runOp C op w).2.obj = setUpObj C u' v' ∧ (runOp C op w).2.sched = w.sched ∧
      (runOp C op w).2.clock = w.clock := by
  cases op <;> first | exact h.elim | skip
  case setInitial u' v' =>
    obtain ⟨o, hp, s, c⟩ := w
    simp only at ho
    subst ho
    exact ⟨u', v', by simp [runOp, setInitial, M.bind_run, M.attr, modObj, M.modify, setUpObj]⟩
  case write k x => exact ⟨u, v, ho, rfl, rfl⟩

theorem data_ops {data : List (Op V)} (h : ∀ op ∈ data, op.Data) {w : World V} {u v : V} (ho : w.obj = setUpObj C u v) :
    ∃ u' v', (runOps C data w).obj = setUpObj C u' v' ∧ (runOps C data w).sched = w.sched ∧
      (runOps C data w).clock = w.clock := by
  induction data generalizing w u v with
  | nil => exact ⟨u, v, ho, rfl, rfl⟩
  | cons op data ih =>
    obtain ⟨u', v', h1, h2, h3⟩ := data_step (C := C) (h op (by simp)) ho
    obtain ⟨u'', v'', e1, e2, e3⟩ := ih (fun o ho => h o (by simp [ho])) h1
    exact ⟨u'', v'', e1, e2.trans h2, e3.trans h3⟩

theorem data_heap {data : List (Op V)} (h : ∀ op ∈ data, op.Data) (w : World V) :
    { runOps C data w with sched := fun _ => false } = runOps C data { w with sched := fun _ => false } := by
  induction data generalizing w with
  | nil => rfl
  | cons op data ih =>
    have hs : { (runOp C op w).2 with sched := fun _ => false } = (runOp C op { w with sched := fun _ => false }).2 := by
      have ho := h op (by simp)
      cases op <;> first | exact ho.elim | skip
      case setInitial u v =>
        obtain ⟨o, hp, s, c⟩ := w
        rcases h1 : o.u10 with _ | _ <;> rcases h2 : o.u20 with _ | _ <;>
          simp [runOp, setInitial, M.bind_run, M.attr, modObj, M.modify, h1, h2]
      case write k x => rfl
    change { runOps C data (runOp C op w).2 with sched := fun _ => false } = _
    rw [ih (fun o ho => h o (by simp [ho])), hs]
    rfl

theorem setupFE_step {w₀ : World V} (h₀ : w₀.Fresh) {k : ℕ} (hs : w₀.FailsAt (1 + k)) :
    (runOps C [.setupFE] w₀).obj = setUpObj C 0 0 ∧ (runOps C [.setupFE] w₀).FailsAt k ∧
    { runOps C [.setupFE] w₀ with sched := fun _ => false } = runOps C [.setupFE] w₀.undisturbed := by
  obtain ⟨o, hp, s, c⟩ := w₀
  simp only [World.Fresh, World.FailsAt] at h₀ hs
  subst h₀
  have h0 : s c = false := by rw [hs]; simp
  refine ⟨?_, ?_, ?_⟩
  · simp [runOps, runOp, setupFE, M.bind_run, ext, h0, modObj, setVec, M.modify, setUpObj]
  · intro j
    simp [runOps, runOp, setupFE, M.bind_run, ext, h0, modObj, setVec, M.modify, hs, add_assoc]
  · simp [runOps, runOp, setupFE, M.bind_run, ext, h0, modObj, setVec, M.modify, World.undisturbed]

theorem before_prepare {w₀ : World V} (h₀ : w₀.Fresh) {data : List (Op V)} (hd : ∀ op ∈ data, op.Data) {k : ℕ}
    (hs : w₀.FailsAt (1 + k)) : ∃ u v, (runOps C (.setupFE :: data) w₀).obj = setUpObj C u v ∧
      (runOps C (.setupFE :: data) w₀).FailsAt k ∧
      { runOps C (.setupFE :: data) w₀ with sched := fun _ => false } = runOps C (.setupFE :: data) w₀.undisturbed := by
  obtain ⟨h1, h2, h3⟩ := setupFE_step (C := C) h₀ hs
  obtain ⟨u, v, e1, e2, e3⟩ := data_ops (C := C) hd h1
  have e : ∀ w : World V, runOps C (.setupFE :: data) w = runOps C data (runOps C [.setupFE] w) := fun _ => rfl
  refine ⟨u, v, e1, fun j => ?_, ?_⟩
  · rw [e, e2, e3]; exact h2 j
  · rw [e, e, data_heap hd, h3]

/-- After the one failure nothing else fails. -/
theorem prepare_failed_noFail {w : World V} {u v : V} (h : w.obj = setUpObj C u v) {k : ℕ}
    (hk : k < prepareSteps C.D.wellPosed) (hs : w.FailsAt k) : (prepareGmres C w).2.NoFail := by
  obtain ⟨o, hp, s, c⟩ := w
  simp only [World.FailsAt] at h hs
  subst h
  cases hwp : C.D.wellPosed <;> simp only [hwp, prepareSteps, Bool.false_eq_true, if_false, if_true] at hk <;>
    interval_cases k <;>
    simp [World.NoFail, prepareGmres, setupSlabMatrix, setupCoupling, setupRhs, setupScaledMass, M.bind_run, ext, setUpObj,
      M.attr, M.get, modObj, setVec, M.modify, add_assoc, *] <;> intro j hj <;> omega

/-! ## C87 -/

variable {w₀ : World V} {data : List (Op V)}

/-- C87, what does hold: if the failing operation is not one of the three allocations, the object after the repeated
call cannot be told from an undisturbed one. -/
theorem C87_retry_partial (h₀ : w₀.Fresh) (hd : ∀ op ∈ data, op.Data) {k : ℕ}
    (hk : k < prepareSteps C.D.wellPosed) (hb : ¬ badStep C.D.wellPosed k) (hs : w₀.FailsAt (1 + k)) :
    (runOp C .prepare (runOps C (.setupFE :: data) w₀)).1 = .error .runtimeError ∧
    (runOp C .prepare (runOps C (.setupFE :: data ++ [.prepare]) w₀)).1 = .ok () ∧
    Indistinguishable C (runOps C (.setupFE :: data ++ [.prepare, .prepare]) w₀)
      (runOps C (.setupFE :: data ++ [.prepare]) w₀.undisturbed) := by
  obtain ⟨u, v, ho, hf, hu⟩ := before_prepare (C := C) h₀ hd hs
  have e1 : runOps C (.setupFE :: data ++ [.prepare]) w₀
      = (prepareGmres C (runOps C (.setupFE :: data) w₀)).2 := by rw [runOps_append]; rfl
  have e2 : runOps C (.setupFE :: data ++ [.prepare, .prepare]) w₀
      = (prepareGmres C (prepareGmres C (runOps C (.setupFE :: data) w₀)).2).2 := by rw [runOps_append]; rfl
  have e3 : runOps C (.setupFE :: data ++ [.prepare]) w₀.undisturbed
      = (prepareGmres C { runOps C (.setupFE :: data) w₀ with sched := fun _ => false }).2 := by
    rw [runOps_append, ← hu]; rfl
  have nf : (runOps C (.setupFE :: data ++ [.prepare, .prepare]) w₀).NoFail ∧
      (runOps C (.setupFE :: data ++ [.prepare]) w₀.undisturbed).NoFail := by
    constructor
    · have i := inv_reach (C := C) h₀ (.setupFE :: data ++ [.prepare])
      have nf := prepare_failed_noFail (C := C) ho hk hf
      rw [e1] at i
      rw [e2]
      exact NoFail.of_keep nf (hist_op (C := C) (b := false) .prepare (fun h => by cases h) _ i).2
    · exact NoFail.of_keep (w := w₀.undisturbed) (fun _ _ => rfl)
        (keep_reach (Inv.of_fresh (show w₀.undisturbed.Fresh from h₀)) _)
  rw [e2, e3] at *
  rw [e1]
  generalize runOps C (.setupFE :: data) w₀ = w at *
  obtain ⟨r1, r2, r3, r4⟩ := C34_retry_partial (C := C) ho hk hb hf
  refine ⟨r1, r2, (Sim.of_noFail ?_ r4 nf.1 nf.2).indistinguishable⟩
  rw [r3, (prepare_setUp (C := C) (w := { w with sched := fun _ => false }) ho fun _ _ => rfl).2]

/-! ## The three allocations -/

/-- Started on an object with the property, the computation does not return. -/
def Raises {α : Type} (P : Obj V → Prop) (x : WM V α) : Prop := ∀ w, P w.obj → ∀ a, (x w).1 ≠ .ok a

namespace Raises
variable {α β : Type} {P : Obj V → Prop}

theorem attr {f : World V → Option α} {e : PyErr} (h : ∀ w, P w.obj → f w = none) : Raises P (M.attr f e) := by
  intro w hw a
  unfold M.attr
  rw [h w hw]
  exact fun e => by cases e

theorem bindLeft {x : WM V α} {f : α → WM V β} (h : Raises P x) : Raises P (x >>= f) := by
  intro w hw b
  rw [M.bind_run]
  rcases e : x w with ⟨_ | a, v⟩
  · exact fun e => by cases e
  · exact absurd (congrArg Prod.fst e) (h w hw a)

theorem bindRight {x : WM V α} {f : α → WM V β} (hx : Pres (Rel.touch Set.univ) x) (h : ∀ a, Raises P (f a)) :
    Raises P (x >>= f) := by
  intro w hw b
  have ho := (hx w).1
  rw [M.bind_run]
  rcases e : x w with ⟨_ | a, v⟩
  · exact fun e => by cases e
  · rw [e] at ho
    exact h a v (by rw [ho]; exact hw) b

theorem forList {l : List α} {a : α} {l' : List α} (hl : l = a :: l') {body : α → WM V Unit} (h : Raises P (body a)) :
    Raises P (M.forList l body) := by subst hl; exact bindLeft h

theorem slabForM {q qs N : ℕ} {body : Counters → ℕ → WM V Unit} (n : ℕ) (hn : n < N)
    (ht : ∀ c m, Pres (Rel.touch Set.univ) (body c m)) (h : ∀ c, Raises P (body c n)) :
    Raises P (Dxss.slabForM q qs N body) := by
  refine bindLeft ?_
  have key : ∀ (l : List ℕ) (c : Counters), n ∈ l → Raises P (M.forAcc l c fun c n => do body c n; return c.next q qs) := by
    intro l
    induction l with
    | nil => intro c h; cases h
    | cons m l ih =>
      intro c hm
      by_cases e : m = n
      · subst e
        exact bindLeft (bindLeft (h c))
      · have hm' : n ∈ l := by
          rcases List.mem_cons.1 hm with h | h
          · exact absurd h.symm e
          · exact h
        exact bindRight (.bind (ht c m) fun _ => .pure _) fun c' => ih c' hm'
  exact key _ _ (List.mem_range.2 hn)

end Raises

theorem apply_no_coupVecs (hN : 2 ≤ C.D.N) (x y : Ref) :
    Raises (fun o => o.coupVecs = none) (applySpacetimeMatrix C x y) := by
  have hT : ∀ c n, Pres (Rel.touch Set.univ) (mfBody C x y c n) := by
    intro c n
    refine .bind (.blockLoop fun j i l => ?_) fun _ => .bind (touch_matMult (by simp) _ _) fun _ =>
      .bind (.blockLoop fun j i l => ?_) fun _ => .ite ?_ (.pure _)
    · exact .bind (.attr _ _) fun _ => .bind (.lift _) fun _ => .bind (.attr _ _) fun _ =>
        .bind (.lift _) fun _ => touch_copyBlock (by simp) _ _ _
    · exact .bind (.attr _ _) fun _ => .bind (.lift _) fun _ => .bind (.attr _ _) fun _ =>
        .bind (.lift _) fun _ => touch_addBlock (by simp) _ _ _
    · refine .bind (.forList fun j _ => .forList fun i _ => ?_) fun _ => .bind (touch_matMult (by simp) _ _) fun _ =>
        .forList fun j _ => .forList fun i _ => ?_
      · exact .bind (.attr _ _) fun _ => .bind (.lift _) fun _ => .bind (.attr _ _) fun _ =>
          .bind (.lift _) fun _ => touch_copyBlock (by simp) _ _ _
      · exact .bind (.attr _ _) fun _ => .bind (.lift _) fun _ => .bind (.attr _ _) fun _ =>
          .bind (.lift _) fun _ => touch_addBlock (by simp) _ _ _
  refine .bindRight (touch_setVec (by simp) _) fun _ => .slabForM 1 (by omega) hT fun c => ?_
  refine .bindRight (.blockLoop fun j i l => ?_) fun _ => .bindRight (touch_matMult (by simp) _ _) fun _ =>
    .bindRight (.blockLoop fun j i l => ?_) fun _ => ?_
  · exact .bind (.attr _ _) fun _ => .bind (.lift _) fun _ => .bind (.attr _ _) fun _ =>
      .bind (.lift _) fun _ => touch_copyBlock (by simp) _ _ _
  · exact .bind (.attr _ _) fun _ => .bind (.lift _) fun _ => .bind (.attr _ _) fun _ =>
      .bind (.lift _) fun _ => touch_addBlock (by simp) _ _ _
  · rw [if_pos Nat.one_pos]
    exact .bindLeft (.forList rfl (.forList rfl (.bindRight (.attr _ _) fun _ => .bindRight (.lift _) fun _ =>
      .bindLeft (.attr fun w h => h))))

theorem preImproved_no_bndVecs (hN : 1 ≤ C.D.N) (hfw : C.D.jumpsFw = false) (x y : Ref) :
    Raises (fun o => o.bndVecs = none) (preTimeMarchingImproved C x y) := by
  unfold preTimeMarchingImproved
  simp only [hfw, Bool.false_eq_true, if_false]
  refine .bindRight (.attr _ _) fun _ => .bindRight (touch_setVec (by simp) _) fun _ =>
    .slabForM 0 (by omega) (fun c n => ?_) fun c => ?_
  · refine .bind (touch_preGather C _ (by simp) _) fun _ => .bind (touch_preSolve (by simp) _ _) fun _ =>
      .bind ?_ fun _ => touch_preWrite C (by simp) _
    exact .bind (.attr _ _) fun _ => .bind (.attr _ _) fun _ => .bind (touch_setVec (by simp) _) fun _ =>
      .bind (.lift _) fun _ => .bind (touch_addBlock (by simp) _ _ _) fun _ => .bind (.lift _) fun _ =>
      .bind (touch_addBlock (by simp) _ _ _) fun _ => .bind (touch_matMult (by simp) _ _) fun _ =>
      .bind (touch_setVec (by simp) _) fun _ => .bind (.lift _) fun _ => .bind (touch_addBlock (by simp) _ _ _) fun _ =>
      .bind (.lift _) fun _ => touch_addBlock (by simp) _ _ _
  · exact .bindRight (touch_preGather C _ (by simp) _) fun _ => .bindRight (touch_preSolve (by simp) _ _) fun _ =>
      .bindLeft (.bindRight (.attr _ _) fun _ => .bindLeft (.attr fun w h => h))

/-- A solver that always returns. -/
def copySolver : Solver := fun b _ => (.ok (), b)

theorem copySolver_computes (n : ℕ) : copySolver.Computes n fun b => .ok b := fun _ _ => ⟨rfl, fun _ _ => rfl⟩

/-- The calls after which the failure shows. -/
def probe : List (Op V) := [.setupSlab false, .setSolverFirst copySolver, .setSolverSlab copySolver]

theorem probe_ok (hC : C.Ok) (hfw : C.D.jumpsFw = false) (h₀ : w₀.Fresh) (hf : w₀.NoFail) (x : InVec) (y : ℕ) :
    (runOp C (.apply x y) (runOps C ([.setupFE, .prepare] ++ probe) w₀)).1 = .ok () ∧
    (runOp C (.preImproved x y) (runOps C ([.setupFE, .prepare] ++ probe) w₀)).1 = .ok () := by
  refine ⟨C29_explicit_setup_partial hC h₀ hf _ x y, ?_⟩
  have i := inv_reach (C := C) h₀ [.setupFE, .prepare]
  have ho := documented (C := C) h₀ hf
  have k := keep_reach i probe
  have hs : SolversSet C probe (fun b => .ok b) (fun b => .ok b) :=
    ⟨⟨copySolver, by simp [probe]⟩, ⟨copySolver, by simp [probe]⟩,
      fun s h => by simp [probe] at h; subst h; exact copySolver_computes _,
      fun s h => by simp [probe] at h; subst h; exact copySolver_computes _⟩
  have hr : PreReady C (runOps C ([.setupFE, .prepare] ++ probe) w₀).obj (fun b => .ok b) (fun b => .ok b) := by
    rw [runOps_append]
    exact ⟨solReady_after i (by rw [ho]; rfl) (by rw [ho]; rfl) (by rw [ho]; rfl) hs, k.bRhsPre _ (by rw [ho]; rfl),
      k.bndVecs _ (by rw [ho]; rfl), k.bndMat _ (by rw [ho]; rfl)⟩
  have hx : x.ref ∉ preScratch := by cases x <;> simp [InVec.ref, preScratch]
  obtain ⟨-, -, -, -, hm⟩ := preImproved_run hC hr hx (show Ref.user y ∉ preScratch by simp [preScratch]) hfw
  have nerr : ∀ (l₀ : Vec) (ln : Vec → Vec) (bb : Vec) (n : ℕ) (e : PyErr),
      march C l₀ ln (fun b => .ok b) (fun b => .ok b) bb n ≠ .error e := by
    intro l₀ ln bb n e he
    induction n with
    | zero => exact absurd he (by simp [march])
    | succ n ih =>
      rw [march] at he
      rcases hm : march C l₀ ln (fun b => .ok b) (fun b => .ok b) bb n with e' | u
      · rw [hm] at he; cases he; exact ih hm
      · rw [hm] at he; cases he
  change (preTimeMarchingImproved C x.ref (.user y) _).1 = _
  rcases hr : (preTimeMarchingImproved C x.ref (.user y) (runOps C ([.setupFE, .prepare] ++ probe) w₀)).1 with e | u
  · rw [hr] at hm
    obtain ⟨n, -, he, -⟩ := hm
    exact absurd he (nerr _ _ _ _ _)
  · exact hr

theorem probe_frame (w : World V) : (runOps C probe w).obj.bRhsPre = w.obj.bRhsPre ∧
    (runOps C probe w).obj.coupVecs = w.obj.coupVecs ∧ (runOps C probe w).obj.bndVecs = w.obj.bndVecs := by
  have h : Pres (Rel.frame fun o => (o.bRhsPre, o.coupVecs, o.bndVecs)) (setupSlabMatrix C false) := by
    simp only [setupSlabMatrix, Bool.false_eq_true, if_false]; pres_tac
  have e := h w
  simp only [Rel.frame, Prod.mk.injEq] at e
  exact e

/-- C87 fails at each of the three allocations, if there are two slabs and no forward jumps: there are calls after which
the matrix-free product or the preconditioner does not return, whereas it does on the undisturbed object. -/
theorem C87_bad_steps (hC : C.Ok) (hN : 2 ≤ C.D.N) (hfw : C.D.jumpsFw = false) (h₀ : w₀.Fresh) {k : ℕ}
    (hb : badStep C.D.wellPosed k) (hs : w₀.FailsAt (1 + k)) :
    (runOp C .prepare (runOps C [.setupFE] w₀)).1 = .error .runtimeError ∧
    (runOp C .prepare (runOps C [.setupFE, .prepare] w₀)).1 = .ok () ∧
    ∃ ops : List (Op V), ∃ op : Op V,
      (runOp C op (runOps C ([.setupFE, .prepare] ++ ops) w₀.undisturbed)).1 = .ok () ∧
      (runOp C op (runOps C ([.setupFE, .prepare, .prepare] ++ ops) w₀)).1 ≠ .ok () := by
  obtain ⟨ho, hf, -⟩ := setupFE_step (C := C) h₀ hs
  obtain ⟨r1, r2, -, r4⟩ := C34_bad_steps (C := C) ho hb hf
  obtain ⟨p1, p2⟩ := probe_ok (w₀ := w₀.undisturbed) hC hfw h₀ (fun _ _ => rfl) (.user 0) 1
  refine ⟨r1, r2, probe, ?_⟩
  have e : runOps C ([.setupFE, .prepare, .prepare] ++ probe) w₀
      = runOps C probe (prepareGmres C (prepareGmres C (runOps C [.setupFE] w₀)).2).2 := by rw [runOps_append]; rfl
  rw [e]
  obtain ⟨f1, f2, f3⟩ := probe_frame (C := C) (prepareGmres C (prepareGmres C (runOps C [.setupFE] w₀)).2).2
  generalize (prepareGmres C (prepareGmres C (runOps C [.setupFE] w₀)).2).2 = w at *
  rcases r4 with h | h | h
  · refine ⟨_, p2, ?_⟩
    change (preTimeMarchingImproved C _ _ _).1 ≠ _
    rw [preImproved_no_vector hfw (f1.trans h)]
    exact fun e => by cases e
  · exact ⟨_, p1, apply_no_coupVecs hN _ _ _ (f2.trans h) _⟩
  · exact ⟨_, p2, preImproved_no_bndVecs (by omega) hfw _ _ _ (f3.trans h) _⟩

/-! ## Non-vacuity and refutation -/

namespace Example
open Polynomial

/-- A new object; the external operation number `k` fails. -/
def failWorld (heap : Ref → Vec) (k : ℕ) : World ℝ[X] := ⟨{}, heap, fun j => decide (j = k), 0⟩

theorem failWorld_failsAt (heap : Ref → Vec) (k : ℕ) : (failWorld heap k).FailsAt k := fun j => by simp [failWorld]

example (heap : Ref → Vec) := C87_retry_partial (C := cfg false false) (w₀ := failWorld heap (1 + 3))
  (data := [.setInitial X 1, .write 0 1]) rfl (by simp [Op.Data]) (k := 3) (by decide) (by simp [badStep, cfg, disc])
  (failWorld_failsAt heap _)
example (heap : Ref → Vec) := C87_bad_steps (cfg_ok false true) (by decide) rfl (w₀ := failWorld heap (1 + 3)) rfl (k := 3)
  (by simp [badStep, cfg, disc]) (failWorld_failsAt heap _)

/-- C87 is false. -/
theorem C87_violated : ¬ C87_statement ℝ[X] := by
  intro h
  obtain ⟨r1, -, ops, op, o1, o2⟩ := C87_bad_steps (cfg_ok false false) (by decide) rfl
    (w₀ := failWorld (fun _ => 0) (1 + 1)) rfl (k := 1) (by simp [badStep, cfg, disc]) (failWorld_failsAt _ _)
  have := (h (cfg false false) (failWorld (fun _ => 0) (1 + 1)) [] 1 (cfg_ok false false) rfl (by simp)
    (failWorld_failsAt _ _) (by rw [r1]; exact fun e => by cases e) ops).1 op
  rw [← runOps_append, ← runOps_append] at this
  exact o2 (this.trans o1)

end Example
end Dxss
