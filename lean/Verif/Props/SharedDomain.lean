import Verif.Model.SharedDomain
import Verif.Props.StabChange
import Verif.Props.Rhs
import Verif.Props.StartTime

/-!
# Objects that share a data domain (C101)
-/

namespace Dxss
open Finset
set_option linter.unusedSectionVars false
variable {V : Type} [AddCommGroup V] [Module ℝ V] {C : Cfg V} {f g : V} {s : DomWorld V} {k : ℕ}

/-! ## Calls that do not read the indicator -/

theorem evalForm_ind (S : Space V) (f g : V) {F : List Term} (h : ∀ t ∈ F, t.op ≠ .omega) (U W : Field V) :
    evalForm S f F U W = evalForm S g F U W := by
  unfold evalForm
  congr 1
  refine List.map_congr_left fun t ht => ?_
  have := h t ht
  unfold Term.eval
  cases ho : t.op <;> first | rfl | exact absurd ho this

theorem evalLin_ind (S : Space V) (f g : V) {F : List (LTerm V)} (h : ∀ t ∈ F, t.op ≠ .omega) (W : Field V) :
    evalLin S f F W = evalLin S g F W := by
  unfold evalLin
  congr 1
  refine List.map_congr_left fun t ht => ?_
  have := h t ht
  unfold LTerm.eval
  cases ho : t.op <;> first | rfl | exact absurd ho this

theorem coupMatOf_withInd : coupMatOf (C.withInd f) = coupMatOf C := by
  have : ∀ U W, evalForm C.S f C.D.couplingForm U W = evalForm C.S C.D.ind C.D.couplingForm U W :=
    fun U W => evalForm_ind _ _ _ (by simp [Disc.couplingForm]) U W
  change assemble C.S f C.fe C.coup C.D.couplingForm = assemble C.S C.D.ind C.fe C.coup C.D.couplingForm
  simp only [assemble, this]

theorem bndMatOf_withInd : bndMatOf (C.withInd f) = bndMatOf C := by
  have : ∀ U W, evalForm C.S f C.D.bndForm U W = evalForm C.S C.D.ind C.D.bndForm U W :=
    fun U W => evalForm_ind _ _ _ (by simp [Disc.bndForm]) U W
  change assemble C.S f C.fe C.bnd C.D.bndForm = assemble C.S C.D.ind C.fe C.bnd C.D.bndForm
  simp only [assemble, this]

theorem preLoad_withInd (n : ℕ) (u v : V) :
    assembleVec C.S f C.fe C.slab (C.D.preLoad C.S n u v) = assembleVec C.S C.D.ind C.fe C.slab (C.D.preLoad C.S n u v) := by
  have : ∀ W, evalLin C.S f (C.D.preLoad C.S n u v) W = evalLin C.S C.D.ind (C.D.preLoad C.S n u v) W := fun W => by
    refine evalLin_ind _ _ _ ?_ W
    unfold Disc.preLoad
    split <;> [split; skip] <;> simp
  unfold assembleVec
  simp only [this]

theorem i_coupling : setupCoupling (C.withInd f) = setupCoupling C := by
  unfold setupCoupling
  rw [coupMatOf_withInd]

theorem i_scaledMass : setupScaledMass (C.withInd f) = setupScaledMass C := by
  unfold setupScaledMass
  rw [bndMatOf_withInd]

theorem i_errQuad (n : ℕ) (s : ℕ → V) (m : V) (t : ℝ) : errQuad (C.withInd f) n s m t = errQuad C n s m t := rfl
theorem i_errSamples (n : ℕ) (s : ℕ → V) (m : V) (t : List ℝ × List ℝ) : errSamples (C.withInd f) n s m t = errSamples C n s m t := rfl

theorem i_errBody (x : ErrAcc) (n : ℕ) : errBody (C.withInd f) x n = errBody C x n := rfl

theorem i_errors (x : Ref) : measuredErrors (C.withInd f) x = measuredErrors C x := rfl

theorem i_preOldBody (b x : Ref) (c : Counters) (n : ℕ) : preOldBody (C.withInd f) b x c n = preOldBody C b x c n := by
  unfold preOldBody
  change (getVec .u10Pre >>= fun u => getVec .u20Pre >>= fun v => setVec .lPre
    (assembleVec C.S f C.fe C.slab (C.D.preLoad C.S n (nodeFun C.fe u) (nodeFun C.fe v))) >>= _) = _
  simp only [preLoad_withInd]
  rfl

theorem i_pre (b x : Ref) : preTimeMarching (C.withInd f) b x = preTimeMarching C b x := by
  have : preOldBody (C.withInd f) b x = preOldBody C b x := by
    funext c n
    exact i_preOldBody b x c n
  unfold preTimeMarching
  rw [this]
  rfl

theorem i_setupFE : setupFE (C.withInd f) = setupFE C := rfl
theorem i_apply (x y : Ref) : applySpacetimeMatrix (C.withInd f) x y = applySpacetimeMatrix C x y := rfl
theorem i_prolongation (x y : Ref) : prolongation (C.withInd f) x y = prolongation C x y := rfl
theorem i_restriction (x y : Ref) : restriction (C.withInd f) x y = restriction C x y := rfl
theorem i_load (x : Ref) : loadFinal (C.withInd f) x = loadFinal C x := rfl
theorem i_improved (x y : Ref) : preTimeMarchingImproved (C.withInd f) x y = preTimeMarchingImproved C x y := rfl

theorem i_qOp (x y : Ref) : qOp (C.withInd f) x y = qOp C x y := by
  unfold qOp
  simp only [i_restriction, i_prolongation]

/-- A call that reads the indicator function. -/
def Op.ReadsIndicator : Op V → Prop
  | .getMatrix _ | .getBfi _ | .getRhs | .getLfi | .getSlabBfi | .getSlabMatrix | .prepare | .prepareCoarse _ | .setupSlab _
  | .setupRhs | .setupMatrix _ => True
  | _ => False

/-- The other calls do not depend on the indicator. -/
theorem runOp_withInd (op : Op V) (h : ¬ op.ReadsIndicator) : runOp (C.withInd f) op = runOp C op := by
  cases op with
  | setupFE => exact i_setupFE
  | apply x y => exact i_apply _ _
  | errors u => simp only [runOp, i_errors]
  | paraView u => simp only [runOp, plotParaView, i_load]
  | qOp x y => exact i_qOp _ _
  | preTwolvl x y => simp only [runOp, w_twolvl]
  | prolongation x y => exact i_prolongation _ _
  | restriction x y => exact i_restriction _ _
  | preImproved x y => exact i_improved _ _
  | setupCoupling => exact i_coupling
  | setupScaledMass => exact i_scaledMass
  | pre b x => exact i_pre _ _
  | getMatrix | getBfi | getRhs | getLfi | getSlabBfi | getSlabMatrix | prepare | prepareCoarse | setupSlab
  | setupRhs | setupMatrix => exact (h trivial).elim
  | _ => rfl

theorem withInd_withInd : (C.withInd f).withInd g = C.withInd g := rfl

/-! ## The statement -/

/-- The step concerns object `k` or the data domain itself. -/
def DomOp.about (k : ℕ) : DomOp V → Bool
  | .new j _ => j = k
  | .call j _ => j = k
  | _ => true

/-- C101, full statement: what happens to an object does not depend on the other objects with the same data domain. -/
def C101_statement (V : Type) [AddCommGroup V] [Module ℝ V] : Prop :=
  ∀ (k : ℕ) (l : List (DomOp V)) (s : DomWorld V), (runDomOps l s).objs k = (runDomOps (l.filter (DomOp.about k)) s).objs k

/-! ## When a construction disturbs -/

instance (a : Args V) : Decidable a.Supported := by unfold Args.Supported; infer_instance

/-- What the construction of an object does to the data domain. -/
theorem new_dom (e : NewArgs V) (s : DomWorld V) :
    ((DomOp.new k e).step s).dom =
      if e.args.N ≠ 0 ∧ e.args.Supported ∧ s.dom.fitted = true then { s.dom with indicator := 0 } else s.dom := by
  have h2 : ((DomOp.new k e).step s).dom = (construct e.interp e.args s.dom).2 := by
    simp only [DomOp.step]
    generalize construct e.interp e.args s.dom = x
    obtain ⟨_ | _, _⟩ := x <;> rfl
  rw [h2]
  by_cases hN : e.args.N = 0
  · rw [C36_failure_frame _ (C36_zero_division.2 hN), if_neg (by simp [hN])]
  by_cases hs : e.args.Supported
  · obtain ⟨b, -, he⟩ := construct_run (interp := e.interp) (om := s.dom) hN hs
    rw [he]
    by_cases hf : s.dom.fitted = true
    · have hc : e.args.N ≠ 0 ∧ e.args.Supported ∧ s.dom.fitted = true := ⟨hN, hs, hf⟩
      rw [if_pos hc]
      simp only [hf, if_true, map_zero]
    · rw [if_neg (by simp [hf])]
      simp [hf]
  · rw [C36_failure_frame _ (C36_key_error.2 ⟨hN, hs⟩), if_neg (by simp [hs])]

theorem new_objs (e : NewArgs V) (s : DomWorld V) {j : ℕ} (h : j ≠ k) : ((DomOp.new j e).step s).objs k = s.objs k := by
  simp only [DomOp.step]
  generalize construct e.interp e.args s.dom = x
  obtain ⟨_ | B, d⟩ := x
  · rfl
  · exact Function.update_of_ne h.symm _ _

theorem call_objs (op : Op V) (s : DomWorld V) {j : ℕ} (h : j ≠ k) : ((DomOp.call j op).step s).objs k = s.objs k := by
  simp only [DomOp.step]
  cases s.objs j with
  | none => rfl
  | some p => exact Function.update_of_ne h.symm _ _

theorem call_dom (op : Op V) (s : DomWorld V) (j : ℕ) : ((DomOp.call j op).step s).dom = s.dom := by
  simp only [DomOp.step]
  cases s.objs j <;> rfl

/-- C101: a construction leaves the data domain alone exactly if it fails, or the domain is not fitted, or its indicator is
zero already. -/
theorem C101_harmless (e : NewArgs V) (s : DomWorld V) :
    ((DomOp.new k e).step s).dom = s.dom ↔
      (e.args.N = 0 ∨ ¬ e.args.Supported) ∨ s.dom.fitted = false ∨ s.dom.indicator = 0 := by
  rw [new_dom]
  constructor
  · intro h
    by_contra hc
    simp only [not_or, not_not] at hc
    obtain ⟨⟨hN, hs⟩, hf, hi⟩ := hc
    rw [if_pos ⟨hN, hs, by simpa using hf⟩] at h
    exact hi (congrArg DataDomain.indicator h).symm
  · intro h
    split
    · rename_i hc
      obtain ⟨h1, h2, h3⟩ := hc
      rcases h with (h | h) | h | h
      · exact absurd h h1
      · exact absurd h2 h
      · rw [h3] at h; cases h
      · rw [← h]
    · rfl

/-- No other object is constructed with a fitted domain while its indicator is not zero. -/
def Undisturbed (k : ℕ) : List (DomOp V) → DomWorld V → Prop
  | [], _ => True
  | op :: l, s => (∀ j e, op = .new j e → j ≠ k → s.dom.fitted = false ∨ s.dom.indicator = 0) ∧ Undisturbed k l (op.step s)

theorem step_congr {s t : DomWorld V} (hd : s.dom = t.dom) (ho : s.objs k = t.objs k) (op : DomOp V) (h : op.about k = true) :
    (op.step s).dom = (op.step t).dom ∧ (op.step s).objs k = (op.step t).objs k := by
  cases op with
  | new j e =>
    have hj : j = k := by simpa [DomOp.about] using h
    subst hj
    simp only [DomOp.step]
    rw [hd]
    generalize construct e.interp e.args t.dom = x
    obtain ⟨_ | B, d⟩ := x
    · exact ⟨rfl, ho⟩
    · exact ⟨rfl, by simp⟩
  | assign f => exact ⟨by simp [DomOp.step, hd], ho⟩
  | setFitted b => exact ⟨by simp [DomOp.step, hd], ho⟩
  | call j op =>
    have hj : j = k := by simpa [DomOp.about] using h
    subst hj
    simp only [DomOp.step]
    rw [ho, hd]
    cases t.objs j with
    | none => exact ⟨hd, ho⟩
    | some p => exact ⟨rfl, by simp⟩

theorem independent_aux (l : List (DomOp V)) {s t : DomWorld V} (hd : s.dom = t.dom) (ho : s.objs k = t.objs k)
    (h : Undisturbed k l s) :
    (runDomOps l s).dom = (runDomOps (l.filter (DomOp.about k)) t).dom ∧
      (runDomOps l s).objs k = (runDomOps (l.filter (DomOp.about k)) t).objs k := by
  induction l generalizing s t with
  | nil => exact ⟨hd, ho⟩
  | cons op l ih =>
    by_cases ha : op.about k = true
    · rw [List.filter_cons_of_pos ha]
      obtain ⟨h1, h2⟩ := step_congr hd ho op ha
      exact ih h1 h2 h.2
    · rw [List.filter_cons_of_neg ha]
      cases op with
      | new j e =>
        have hj : j ≠ k := by simpa [DomOp.about] using ha
        exact ih (((C101_harmless e s).2 (.inr (h.1 j e rfl hj))).trans hd) ((new_objs e s hj).trans ho) h.2
      | assign f => exact absurd rfl ha
      | setFitted b => exact absurd rfl ha
      | call j op =>
        have hj : j ≠ k := by simpa [DomOp.about] using ha
        exact ih ((call_dom op s j).trans hd) ((call_objs op s hj).trans ho) h.2

/-- C101, what holds: as long as no other object is constructed with a fitted domain whose indicator is not zero, all steps that
concern other objects can be left out.  (`_partial`: such constructions are excluded.) -/
theorem C101_independent_partial (l : List (DomOp V)) (s : DomWorld V) (h : Undisturbed k l s) :
    (runDomOps l s).objs k = (runDomOps (l.filter (DomOp.about k)) s).objs k ∧
      (runDomOps l s).dom = (runDomOps (l.filter (DomOp.about k)) s).dom :=
  (independent_aux l rfl rfl h).symm

theorem undisturbed_of (l : List (DomOp V)) (s : DomWorld V)
    (h : (s.dom.fitted = false ∧ .setFitted true ∉ l) ∨ (s.dom.indicator = 0 ∧ ∀ f, .assign f ∈ l → f = 0)) : Undisturbed k l s := by
  induction l generalizing s with
  | nil => trivial
  | cons op l ih =>
    refine ⟨fun j e _ _ => h.imp And.left And.left, ih _ ?_⟩
    rcases h with ⟨h1, h2⟩ | ⟨h1, h2⟩
    · left
      refine ⟨?_, fun h => h2 (List.mem_cons_of_mem _ h)⟩
      cases op with
      | new j e => rw [new_dom, if_neg (by simp [h1])]; exact h1
      | assign f => exact h1
      | setFitted b =>
        cases b
        · rfl
        · simp at h2
      | call j op => rw [call_dom]; exact h1
    · right
      refine ⟨?_, fun f h => h2 f (List.mem_cons_of_mem _ h)⟩
      cases op with
      | new j e =>
        rw [new_dom]
        split
        · rfl
        · exact h1
      | assign f => exact h2 f (by simp)
      | setFitted b => exact h1
      | call j op => rw [call_dom]; exact h1

/-- C101: objects with a domain which is not fitted are independent, whatever is assigned to its indicator; so are objects with a
fitted domain to whose indicator nothing is assigned once it is zero (which it is after the first construction, C35). -/
theorem C101_unfitted_partial (l : List (DomOp V)) (s : DomWorld V)
    (h : (s.dom.fitted = false ∧ .setFitted true ∉ l) ∨ (s.dom.indicator = 0 ∧ ∀ f, .assign f ∈ l → f = 0)) :
    (runDomOps l s).objs k = (runDomOps (l.filter (DomOp.about k)) s).objs k :=
  (C101_independent_partial l s (undisturbed_of l s h)).1

/-! ## An indicator set after the construction -/

/-- The calls on object `k`. -/
def DomOp.callsOn (k : ℕ) : List (DomOp V) → List (Op V)
  | [] => []
  | .call j op :: l => if j = k then op :: callsOn k l else callsOn k l
  | _ :: l => callsOn k l

/-- The variable `k` is not given another object. -/
def KeepsObj (k : ℕ) (l : List (DomOp V)) : Prop := ∀ e, .new k e ∉ l

/-- The domain is not changed by the caller. -/
def NoAssign (l : List (DomOp V)) : Prop := (∀ f, .assign f ∉ l) ∧ ∀ b, .setFitted b ∉ l

theorem before_read (l : List (DomOp V)) (h : ∀ op ∈ DomOp.callsOn k l, ¬ op.ReadsIndicator) (hk : KeepsObj k l) {w : World V}
    (hs : s.objs k = some (C, w)) : (runDomOps l s).objs k = some (C, runOps (C.withInd f) (DomOp.callsOn k l) w) := by
  induction l generalizing s w with
  | nil => exact hs
  | cons x l ih =>
    have hk' : KeepsObj k l := fun e he => hk e (List.mem_cons_of_mem _ he)
    cases x with
    | new j e =>
      have hj : j ≠ k := by
        rintro rfl
        exact hk e (by simp)
      exact ih h hk' ((new_objs e s hj).trans hs)
    | assign f => exact ih h hk' hs
    | setFitted b => exact ih h hk' hs
    | call j op =>
      by_cases hj : j = k
      · subst hj
        simp only [DomOp.callsOn, if_true] at h ⊢
        have h1 := h op (by simp)
        refine ih (w := (runOp (C.withInd f) op w).2) (fun o ho => h o (by simp [ho])) hk' ?_
        simp [DomOp.step, hs, runOp_withInd op h1]
      · simp only [DomOp.callsOn, if_neg hj] at h ⊢
        exact ih h hk' ((call_objs op s hj).trans hs)

theorem after_read (l : List (DomOp V)) (hk : KeepsObj k l) (hn : NoAssign l) (hu : Undisturbed k l s) {w : World V}
    (hs : s.objs k = some (C, w)) :
    (runDomOps l s).objs k = some (C, runOps (C.withInd s.dom.indicator) (DomOp.callsOn k l) w) ∧ (runDomOps l s).dom = s.dom := by
  induction l generalizing s w with
  | nil => exact ⟨hs, rfl⟩
  | cons x l ih =>
    have hk' : KeepsObj k l := fun e he => hk e (List.mem_cons_of_mem _ he)
    have hn' : NoAssign l := ⟨fun f hf => hn.1 f (List.mem_cons_of_mem _ hf), fun b hb => hn.2 b (List.mem_cons_of_mem _ hb)⟩
    cases x with
    | new j e =>
      have hj : j ≠ k := by
        rintro rfl
        exact hk e (by simp)
      have hd := (C101_harmless (k := j) e s).2 (.inr (hu.1 j e rfl hj))
      have := ih hk' hn' hu.2 ((new_objs e s hj).trans hs)
      rw [hd] at this
      exact this
    | assign f => exact absurd (by simp) (hn.1 f)
    | setFitted b => exact absurd (by simp) (hn.2 b)
    | call j op =>
      have hd := call_dom op s j
      by_cases hj : j = k
      · subst hj
        simp only [DomOp.callsOn, if_true]
        have := ih (w := (runOp (C.withInd s.dom.indicator) op w).2) hk' hn' hu.2 (by simp [DomOp.step, hs])
        rw [hd] at this
        exact this
      · simp only [DomOp.callsOn, if_neg hj]
        have := ih hk' hn' hu.2 ((call_objs op s hj).trans hs)
        rw [hd] at this
        exact this

theorem runDomOps_append (l l' : List (DomOp V)) (s : DomWorld V) : runDomOps (l ++ l') s = runDomOps l' (runDomOps l s) :=
  List.foldl_append

/-- C101: whatever happens to the domain before the first call on an object that reads the indicator, and whatever other objects do, the
object behaves as if it had been constructed with the indicator the domain has then, provided the domain is left alone afterwards.
(`_partial`: later changes, by the caller or by the construction of another object, are excluded.) -/
theorem C101_settled_partial (l l' : List (DomOp V)) (h : ∀ op ∈ DomOp.callsOn k l, ¬ op.ReadsIndicator) (hk : KeepsObj k (l ++ l'))
    (hn : NoAssign l') (hu : Undisturbed k l' (runDomOps l s)) {w : World V} (hs : s.objs k = some (C, w)) :
    (runDomOps (l ++ l') s).objs k =
      some (C, runOps (C.withInd (runDomOps l s).dom.indicator) (DomOp.callsOn k l ++ DomOp.callsOn k l') w) := by
  rw [runDomOps_append]
  have h1 := before_read (f := (runDomOps l s).dom.indicator) l h (fun e he => hk e (List.mem_append_left _ he)) hs
  rw [(after_read l' (fun e he => hk e (List.mem_append_right _ he)) hn hu h1).1]
  congr 2
  exact (List.foldl_append (l := DomOp.callsOn k l)).symm

/-- C101: this repairs the loss of the indicator (C35).  Construct the object with a fitted domain and assign the interpolated indicator
`f` afterwards; then the object behaves like one constructed with `f` and `fitted=False`, as long as no other object is constructed with
the domain and nothing else is assigned. -/
theorem C101_repair (e : NewArgs V) (s : DomWorld V) (f : V) {B : Built V} {om' : DataDomain V}
    (hb : construct e.interp e.args s.dom = (.ok B, om')) (hB : (e.cfg B).OfBuilt B) (l : List (DomOp V))
    (hl : ∀ x ∈ l, ∃ j op, x = .call j op) :
    ∃ C B', construct e.interp e.args ⟨f, false⟩ = (.ok B', ⟨f, false⟩) ∧ C.OfBuilt B' ∧ C = (e.cfg B).withInd f ∧
      (runDomOps (.new k e :: .assign f :: l) s).objs k = some (e.cfg B, runOps C (DomOp.callsOn k l) e.start) := by
  have hok : (construct e.interp e.args s.dom).1 = .ok B := by rw [hb]
  have hN : e.args.N ≠ 0 := fun hN => by rw [C36_zero_division.2 hN] at hok; cases hok
  have hsup : e.args.Supported := by
    by_contra hs
    rw [C36_key_error.2 ⟨hN, hs⟩] at hok
    cases hok
  obtain ⟨b, hbt, he⟩ := construct_run (interp := e.interp) (om := s.dom) hN hsup
  obtain ⟨b', hbt', he'⟩ := construct_run (interp := e.interp) (om := (⟨f, false⟩ : DataDomain V)) hN hsup
  obtain rfl : b = b' := Option.some.inj (hbt.symm.trans hbt')
  rw [he] at hok
  obtain rfl := Except.ok.inj hok
  refine ⟨(e.cfg (builtOf e.interp e.args s.dom b)).withInd f, _, he', ⟨?_, hB.pts, hB.ws, hB.ptsHo, hB.wsHo, hB.T, hB.dsol, hB.samples⟩, rfl, ?_⟩
  · have : ((e.cfg (builtOf e.interp e.args s.dom b)).withInd f).D
        = { (e.cfg (builtOf e.interp e.args s.dom b)).D with ind := f } := rfl
    rw [this, hB.D]
    simp [builtOf]
  · have hstep : (DomOp.new k e).step s = ⟨om', Function.update s.objs k (some (e.cfg (builtOf e.interp e.args s.dom b), e.start))⟩ := by
      simp only [DomOp.step]
      rw [hb]
    have hkeep : KeepsObj k l := fun e' h' => by
      obtain ⟨j, op, h⟩ := hl _ h'
      cases h
    have hna : NoAssign l := by
      refine ⟨fun f' h' => ?_, fun b' h' => ?_⟩ <;>
      · obtain ⟨j, op, h⟩ := hl _ h'
        cases h
    have hun : ∀ t : DomWorld V, Undisturbed k l t := by
      clear hkeep hna
      induction l with
      | nil => exact fun _ => trivial
      | cons x l ih =>
        intro t
        refine ⟨fun j e' h' => ?_, ih (fun y hy => hl y (List.mem_cons_of_mem _ hy)) _⟩
        obtain ⟨j, op, h⟩ := hl x (by simp)
        rw [h] at h'
        cases h'
    change (runDomOps l ((DomOp.assign f).step ((DomOp.new k e).step s))).objs k = _
    rw [hstep]
    exact (after_read (C := e.cfg _) (w := e.start) l hkeep hna (hun _) (by simp [DomOp.step])).1

/-! ## The disturbance is visible -/

theorem slabData_unit (hC : C.Ok) {r : ℕ} (hr : r < C.fe.mP) (f : V) :
    evalForm C.S f C.D.slabData (C.slab.field C.fe (unitVec (C.slab.dof 0 0 r))) (C.slab.field C.fe (unitVec (C.slab.dof 0 0 r)))
      = C.D.gData * C.D.dt * C.D.E.M_q_q 0 0 * C.S.omega f (C.fe.bP r) (C.fe.bP r) := by
  have hu := fun c' i' => hC.slab.unit_field (c := 0) (i := 0) (s := r) (by rw [hC.slabN]; simp [slabSizes]) hr c' i'
  have z : ∀ i : ℕ, C.slab.field C.fe (unitVec (C.slab.dof 0 0 r)) 0 i = if i = 0 then C.fe.bP r else 0 := fun i => by
    rw [hu]; simp [FE.basis]
  rw [Disc.slabData, evalForm_loop2]
  simp only [evalForm, List.map_cons, List.map_nil, List.sum_cons, List.sum_nil, add_zero, Term.eval, SOp.eval, at_, Operand.eval,
    one_smul, z]
  rw [sum_eq_single 0, sum_eq_single 0]
  · simp
  · intro b _ hb
    simp [hb]
  · simp
  · intro b _ hb
    simp [hb]
  · simp

theorem mass00_pos (hC : C.Ok) : 0 < (C.D.E.M_q_q 0 0 : ℝ) := by
  have h := (C04_definiteness hC.disc.elmat fun j => if j = 0 then 1 else 0).2.2.2.1 ⟨0, by simp, by simp⟩
  rw [sum_eq_single 0 (fun b _ hb => by simp [hb]) (by simp), sum_eq_single 0 (fun b _ hb => by simp [hb]) (by simp)] at h
  simpa using h

/-- Slab matrices for different indicators differ. -/
theorem slab_ind_ne (hC : C.Ok) {r : ℕ} (hr : r < C.fe.mP) (hg : C.D.gData ≠ 0)
    (hm : C.S.omega f (C.fe.bP r) (C.fe.bP r) ≠ C.S.omega g (C.fe.bP r) (C.fe.bP r)) (j : Bool) :
    slabMatOf (C.withInd f) j ≠ slabMatOf (C.withInd g) j := by
  intro h
  have h1 := congrFun (congrFun (congrArg Mat.a h) (C.slab.dof 0 0 r)) (C.slab.dof 0 0 r)
  have hlt : C.slab.dof 0 0 r < C.slab.size := hC.slab.lt 0 0 r (by rw [hC.slabN]; simp [slabSizes]) hr
  simp only [slabMatOf, assemble] at h1
  change (if _ < C.slab.size then _ else _) = (if _ < C.slab.size then _ else _) at h1
  rw [if_pos hlt, if_pos hlt] at h1
  change evalForm C.S f (C.D.slabForm j) _ _ = evalForm C.S g (C.D.slabForm j) _ _ at h1
  simp only [Disc.slabForm, evalForm_cons, evalForm_append] at h1
  have mem : ∀ {n m : ℕ} {body : ℕ → ℕ → List Term}, (∀ a b, ∀ t ∈ body a b, t.op ≠ .omega) → ∀ t ∈ loop2 n m body, t.op ≠ .omega := by
    intro n m body hb t ht
    simp only [loop2, List.mem_flatMap, List.mem_range] at ht
    obtain ⟨a, -, b, -, ht⟩ := ht
    exact hb a b t ht
  rw [evalForm_ind C.S f g (F := C.D.slabWave) (mem fun a b => by split <;> simp),
    evalForm_ind C.S f g (F := C.D.slabAdj) (mem fun a b => by split <;> simp),
    evalForm_ind C.S f g (F := C.D.slabDual) (mem fun a b => by simp),
    evalForm_ind C.S f g (F := C.D.slabPrimal) (mem fun a b => by simp),
    evalForm_ind C.S f g (F := C.D.slabDualJump j) (by unfold Disc.slabDualJump; split <;> simp),
    evalForm_ind C.S f g (F := C.D.slabJump j) (by unfold Disc.slabJump; split <;> [split; skip] <;> simp)] at h1
  have h2 : evalForm C.S f C.D.slabData (C.slab.field C.fe (unitVec (C.slab.dof 0 0 r))) (C.slab.field C.fe (unitVec (C.slab.dof 0 0 r)))
      = evalForm C.S g C.D.slabData (C.slab.field C.fe (unitVec (C.slab.dof 0 0 r))) (C.slab.field C.fe (unitVec (C.slab.dof 0 0 r))) := by
    simp only [Term.eval, SOp.eval] at h1
    have e1 : (C.withInd f).slab.field (C.withInd f).fe = C.slab.field C.fe := rfl
    have e2 : (C.withInd g).slab.field (C.withInd g).fe = C.slab.field C.fe := rfl
    rw [e1, e2] at h1
    linarith
  rw [slabData_unit hC hr, slabData_unit hC hr] at h2
  exact hm (mul_left_cancel₀ (mul_ne_zero (mul_ne_zero hg hC.disc.dt_ne) (mass00_pos hC).ne') h2)

/-- C101: constructing another object with a fitted domain changes an existing one.  Two objects, the indicator `f` assigned to the
domain between their constructions: the slab matrix of the first one is that of the zero indicator; without the second object it is
the one of `f`, a different matrix whenever `f` is seen by the finite elements. -/
theorem C101_disturbed (e e' : NewArgs V) (s : DomWorld V) (hfit : s.dom.fitted = true) (f : V) {B : Built V} {om' : DataDomain V}
    (hb : construct e.interp e.args s.dom = (.ok B, om')) (hN : e'.args.N ≠ 0) (hs : e'.args.Supported) {j : ℕ} (hj : j ≠ k)
    (h₀ : e.start.Fresh) (hf : e.start.NoFail) :
    (∃ w, (runDomOps [.new k e, .assign f, .new j e', .call k .setupFE, .call k (.setupSlab true)] s).objs k = some (e.cfg B, w) ∧
      w.obj.slabMat = some (slabMatOf ((e.cfg B).withInd 0) true)) ∧
    (∃ w, (runDomOps [.new k e, .assign f, .call k .setupFE, .call k (.setupSlab true)] s).objs k = some (e.cfg B, w) ∧
      w.obj.slabMat = some (slabMatOf ((e.cfg B).withInd f) true)) := by
  have key : ∀ C : Cfg V, (runOps C [.setupFE, .setupSlab true] e.start).obj.slabMat = some (slabMatOf C true) := by
    intro C
    have hc : ∀ i, e.start.sched (e.start.clock + i) = false := fun i => hf _ (by omega)
    have h1 := hc 0
    have h2 := hc 1
    have h3 := hc 2
    have h4 := hc 3
    generalize e.start = w at h₀ h1 h2 h3 h4
    obtain ⟨o, hp, sc, c⟩ := w
    obtain rfl : o = {} := h₀
    simp only [add_zero] at h1 h2 h3 h4
    cases hw : C.D.wellPosed <;>
      simp [runOps, runOp, setupFE, setupSlabMatrix, M.bind_run, ext, h1, h2, h3, add_assoc, hw, modObj, M.modify, setVec, M.attr]
  have h1 : (DomOp.new k e).step s = ⟨om', Function.update s.objs k (some (e.cfg B, e.start))⟩ := by
    simp only [DomOp.step]
    rw [hb]
  have hd : om'.fitted = true := by
    have := new_dom (k := k) e s
    rw [h1] at this
    rw [show om' = _ from this]
    split <;> simp [hfit]
  constructor
  · refine ⟨runOps ((e.cfg B).withInd 0) [.setupFE, .setupSlab true] e.start, ?_, key _⟩
    have h2 : ((DomOp.new j e').step ((DomOp.assign f).step ((DomOp.new k e).step s))).dom.indicator = 0 := by
      rw [new_dom, if_pos ⟨hN, hs, by rw [h1]; exact hd⟩]
    have h3 : ((DomOp.new j e').step ((DomOp.assign f).step ((DomOp.new k e).step s))).objs k = some (e.cfg B, e.start) := by
      rw [new_objs _ _ hj, h1]
      simp [DomOp.step]
    have := (after_read (k := k) [.call k .setupFE, .call k (.setupSlab true)] (by simp [KeepsObj]) (by simp [NoAssign])
      (by simp [Undisturbed]) h3).1
    rw [h2] at this
    simp only [DomOp.callsOn, if_true] at this
    exact this
  · refine ⟨runOps ((e.cfg B).withInd f) [.setupFE, .setupSlab true] e.start, ?_, key _⟩
    have h3 : ((DomOp.assign f).step ((DomOp.new k e).step s)).objs k = some (e.cfg B, e.start) := by
      rw [h1]
      simp [DomOp.step]
    have := (after_read (k := k) [.call k .setupFE, .call k (.setupSlab true)] (by simp [KeepsObj]) (by simp [NoAssign])
      (by simp [Undisturbed]) h3).1
    simp only [DomOp.callsOn, if_true] at this
    exact this

/-! ## Non-vacuity and refutation -/

namespace Example

/-- The object of solve_1d.py, with spaces as in `cfgS`. -/
noncomputable def new1 (heap : Ref → Vec) : NewArgs V3 where
  interp := LinearMap.id
  args := Script.d1.args (fun _ => (1, 0, 0)) fun _ => 0
  cfg := cfgS
  start := freshWorld heap

noncomputable def dom1 : DomWorld V3 where
  dom := Script.d1.dataDomain (1, 0, 0)
  objs _ := none

theorem new1_ok (heap : Ref → Vec) : ∃ B om', construct (new1 heap).interp (new1 heap).args dom1.dom = (.ok B, om') ∧
    ((new1 heap).cfg B).Ok ∧ ((new1 heap).cfg B).OfBuilt B ∧ ((new1 heap).cfg B).D.gData ≠ 0 := by
  obtain ⟨b, -, e⟩ := construct_run (interp := LinearMap.id) (a := (new1 heap).args) (om := dom1.dom)
    (by simp [new1, Script.args, Script.N]) (Script.d1.supported _ _)
  refine ⟨_, _, e, ?_, ?_, ?_⟩
  · refine ⟨⟨getElmatTime_ok ?_ ?_, ?_⟩, stdSpace_ok _ _, rfl, stdSpace_ok _ _, rfl, stdSpace_ok _ _, rfl,
      stdSpace_ok _ _, rfl⟩
    · simp [new1, cfgS, cfg3, builtOf, Script.args, Script.otime, Script.order]
    · simp [new1, cfgS, cfg3, builtOf, Script.args, Script.otime, Script.order]
    · simp [new1, cfgS, cfg3, builtOf, Script.args, Script.T, Script.N]
  · constructor <;> simp [new1, cfgS, cfg3, builtOf, QuadRule.currentPts, QuadRule.tWeights, gaussRadau]
  · norm_num [new1, cfgS, cfg3, builtOf, Script.args, Script.stabs]

/-- C101 is false. -/
theorem C101_violated : ¬ C101_statement V3 := by
  intro hst
  obtain ⟨B, om', hb, hC, hO, hg⟩ := new1_ok fun _ => 0
  have hfit : dom1.dom.fitted = true := rfl
  obtain ⟨⟨w, h1, h2⟩, w', h3, h4⟩ := C101_disturbed (k := 0) (j := 1) (new1 fun _ => 0) (new1 fun _ => 0) dom1 hfit (1, 0, 0) hb
    (by simp [new1, Script.args, Script.N]) (Script.d1.supported _ _) (by decide) (freshWorld_fresh _) (freshWorld_noFail _)
  have h := hst 0 _ dom1 |>.symm.trans h1
  rw [show List.filter (DomOp.about 0) [DomOp.new 0 (new1 fun _ => 0), .assign ((1, 0, 0) : V3), .new 1 (new1 fun _ => 0),
    .call 0 .setupFE, .call 0 (.setupSlab true)] = [.new 0 (new1 fun _ => 0), .assign (1, 0, 0), .call 0 .setupFE,
    .call 0 (.setupSlab true)] from rfl] at h
  rw [h] at h3
  have hw : w = w' := by
    have := Option.some.inj h3
    exact (Prod.ext_iff.1 this).2
  rw [hw, h4] at h2
  refine slab_ind_ne hC (r := 1) (by simp [new1, cfgS, cfg3, fe3]) hg ?_ true (Option.some.inj h2)
  have h0 : modeSpace.omega (1, 0, 0) (0, 1, 0) (0, 1, 0) = modeSpace.mass (0, 1, 0) (0, 1, 0) := by
    change ∫ x in (0:ℝ)..1, (ι (1, 0, 0)).1 x * (ι (0, 1, 0)).1 x * (ι (0, 1, 0)).1 x
      = ∫ x in (0:ℝ)..1, (ι (0, 1, 0)).1 x * (ι (0, 1, 0)).1 x
    simp [ι_apply]
  change modeSpace.omega (1, 0, 0) (0, 1, 0) (0, 1, 0) ≠ modeSpace.omega 0 (0, 1, 0) (0, 1, 0)
  rw [h0, map_zero]
  intro hz
  have := modeSpace_definite.1 _ hz
  simp at this

/-- An object after the construction of another one with a domain that is not fitted. -/
example (heap : Ref → Vec) (s : DomWorld V3) (h : s.dom.fitted = false) := C101_unfitted_partial (k := 0)
  [.new 0 (new1 heap), .assign (1, 0, 0), .new 1 (new1 heap), .call 1 .setupFE, .call 0 .setupFE, .call 0 .prepare] s
  (.inl ⟨h, by simp⟩)
example (heap : Ref → Vec) := C101_unfitted_partial (k := 0)
  [.new 1 (new1 heap), .call 0 .setupFE, .new 2 (new1 heap), .call 0 .prepare] ({ dom1 with dom := ⟨0, true⟩ } : DomWorld V3)
  (.inr ⟨rfl, by simp⟩)
example (heap : Ref → Vec) : ∃ C B', construct LinearMap.id (Script.d1.args (fun _ => (1, 0, 0)) fun _ => 0)
      (⟨(1, 0, 0), false⟩ : DataDomain V3) = (.ok B', ⟨(1, 0, 0), false⟩) ∧ C.OfBuilt B' ∧ C.Ok ∧
    ∃ C', (runDomOps [.new 0 (new1 heap), .assign (1, 0, 0), .call 0 .setupFE, .call 0 .prepare] dom1).objs 0
      = some (C', runOps C [.setupFE, .prepare] (freshWorld heap)) := by
  obtain ⟨B, om', hb, hC, hO, -⟩ := new1_ok heap
  obtain ⟨C, B', h1, h2, h3, h4⟩ := C101_repair (k := 0) (new1 heap) dom1 (1, 0, 0) hb hO [.call 0 .setupFE, .call 0 .prepare]
    (by simp)
  refine ⟨C, B', h1, h2, ?_, _, h4⟩
  rw [h3]
  exact ⟨⟨hC.disc.elmat, hC.disc.dt_ne⟩, hC.full, hC.fullN, hC.slab, hC.slabN, hC.coup, hC.coupN, hC.bnd, hC.bndN⟩

end Example

end Dxss
