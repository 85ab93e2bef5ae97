import Verif.Model.StabDict
import Verif.Lemmas.Frame
import Verif.Props.Setup

/-!
# The dictionary of stabilisation parameters (C98)

Which parameters a call reads; with all of them present the model with look-ups is the model of the other files; a call does not
depend on entries it does not read; a missing entry is reported by `KeyError`.
-/

namespace Dxss
set_option linter.unusedSectionVars false
variable {V : Type} [AddCommGroup V] [Module ℝ V] {C : Cfg V} {d d' : StabDict}

/-- The dictionary has the four keys. -/
structure StabDict.Has (d : StabDict) (gData gDual gPrimal gJump : ℝ) : Prop where
  data : d "data" = some gData
  dual : d "dual" = some gDual
  primal : d "primal" = some gPrimal
  jump : d "primal-jump" = some gJump

theorem lift_ok_bind {σ α β : Type} (a : α) (k : α → M σ β) : (M.lift (.ok a) >>= k) = k a := rfl

theorem attr_attr {σ α β : Type} (f : σ → Option α) (k : α → M σ β) (e : PyErr) :
    (M.attr f e >>= fun _ => M.attr f e >>= k) = (M.attr f e >>= k) := by
  funext s
  simp only [bind, M.bind', M.attr]
  cases h : f s <;> simp [h]

variable {a b c e : ℝ}

theorem look_some {key : String} (h : d key = some a) : d.look key = .ok a := by simp [StabDict.look, h]

theorem Dict.setupSpacetimeMatrix_eq (h : d.Has a b c e) (p : Bool) :
    Dict.setupSpacetimeMatrix C d p = Dxss.setupSpacetimeMatrix (C.withStabs a b c e) p := by
  simp only [Dict.setupSpacetimeMatrix, look_some h.data, look_some h.dual, look_some h.primal, look_some h.jump, lift_ok_bind,
    Dxss.setupSpacetimeMatrix]
  exact attr_attr _ _ _

theorem Dict.setupRhs_eq (h : d.Has a b c e) : Dict.setupRhs C d = Dxss.setupRhs (C.withStabs a b c e) := by
  simp only [Dict.setupRhs, look_some h.data, look_some h.jump, lift_ok_bind, Dxss.setupRhs]
  exact attr_attr _ _ _

theorem Dict.setupCoupling_eq (h : d.Has a b c e) : Dict.setupCoupling C d = Dxss.setupCoupling (C.withStabs a b c e) := by
  simp only [Dict.setupCoupling, look_some h.jump, lift_ok_bind, Dxss.setupCoupling]
  exact attr_attr _ _ _

theorem Dict.setupScaledMass_eq (h : d.Has a b c e) : Dict.setupScaledMass C d = Dxss.setupScaledMass (C.withStabs a b c e) := by
  simp only [Dict.setupScaledMass, look_some h.jump, lift_ok_bind, Dxss.setupScaledMass]
  exact attr_attr _ _ _

theorem Dict.setupSlabMatrix_eq (h : d.Has a b c e) (j : Bool) :
    Dict.setupSlabMatrix C d j = Dxss.setupSlabMatrix (C.withStabs a b c e) j := by
  simp only [Dict.setupSlabMatrix, look_some h.data, look_some h.dual, look_some h.primal, look_some h.jump, lift_ok_bind,
    Dxss.setupSlabMatrix]
  exact attr_attr _ _ _

theorem w_setupFE : setupFE (C.withStabs a b c e) = setupFE C := rfl
theorem w_apply (x y : Ref) : applySpacetimeMatrix (C.withStabs a b c e) x y = applySpacetimeMatrix C x y := rfl
theorem w_prolongation (x y : Ref) : prolongation (C.withStabs a b c e) x y = prolongation C x y := rfl
theorem w_restriction (x y : Ref) : restriction (C.withStabs a b c e) x y = restriction C x y := rfl
theorem w_load (x : Ref) : loadFinal (C.withStabs a b c e) x = loadFinal C x := rfl
theorem w_errLoad (n : ℕ) (i : ℤ) : errLoad (C.withStabs a b c e) n i = errLoad C n i := rfl
theorem w_uhAt (n : ℕ) (s : ℕ → V) (m : V) (t : ℝ) : uhAt (C.withStabs a b c e).D n s m t = uhAt C.D n s m t := rfl
theorem w_uhPrimeAt (n : ℕ) (s : ℕ → V) (m : V) (t : ℝ) :
    uhPrimeAt (C.withStabs a b c e).D n s m t = uhPrimeAt C.D n s m t := rfl

theorem w_errQuad (n : ℕ) (s : ℕ → V) (m : V) (t : ℝ) :
    errQuad (C.withStabs a b c e) n s m t = errQuad C n s m t := by
  unfold errQuad
  simp only [w_uhPrimeAt]
  rfl

theorem w_errSamples (n : ℕ) (s : ℕ → V) (m : V) (t : List ℝ × List ℝ) :
    errSamples (C.withStabs a b c e) n s m t = errSamples C n s m t := by
  unfold errSamples
  simp only [w_uhPrimeAt, w_uhAt]
  rfl

theorem w_errBody (x : ErrAcc) (n : ℕ) : errBody (C.withStabs a b c e) x n = errBody C x n := by
  unfold errBody
  simp only [w_errLoad, w_errQuad, w_errSamples]
  rfl

theorem w_errors (x : Ref) : measuredErrors (C.withStabs a b c e) x = measuredErrors C x := by
  have : errBody (C.withStabs a b c e) = errBody C := by
    funext x n
    exact w_errBody x n
  unfold measuredErrors
  simp only [w_load, this]
  rfl

theorem w_qOp (x y : Ref) : qOp (C.withStabs a b c e) x y = qOp C x y := by
  unfold qOp
  simp only [w_restriction, w_prolongation]

theorem w_twolvl (C : Cfg V) (x y : Ref) : preTwolvl C x y = M.raise .attributeError := rfl

theorem w_improved (x y : Ref) : preTimeMarchingImproved (C.withStabs a b c e) x y = preTimeMarchingImproved C x y := rfl

/-- A call that builds a form. -/
def Op.BuildsForm : Op V → Prop
  | .getMatrix _ | .getBfi _ | .getRhs | .getLfi | .getSlabBfi | .getSlabMatrix | .prepare | .pre _ _ | .preImproved _ _
  | .prepareCoarse _ | .setupSlab _ | .setupCoupling | .setupScaledMass | .setupRhs | .setupMatrix _ => True
  | _ => False

theorem runOp_withStabs (op : Op V) (h : ¬ op.BuildsForm) : runOp (C.withStabs a b c e) op = runOp C op := by
  cases op with
  | setupFE => exact w_setupFE
  | apply x y => exact w_apply _ _
  | errors u => simp only [runOp, w_errors]
  | paraView u => simp only [runOp, plotParaView, w_load]
  | qOp x y => exact w_qOp _ _
  | preTwolvl x y => simp only [runOp, w_twolvl]
  | prolongation x y => exact w_prolongation _ _
  | restriction x y => exact w_restriction _ _
  | getMatrix | getBfi | getRhs | getLfi | getSlabBfi | getSlabMatrix | prepare | pre | preImproved | prepareCoarse | setupSlab
  | setupCoupling | setupScaledMass | setupRhs | setupMatrix => exact (h trivial).elim
  | _ => rfl

theorem Dict.runOp_other (op : Op V) (h : ¬ op.BuildsForm) : Dict.runOp C d op = Dxss.runOp C op := by
  cases op <;> first | rfl | exact (h trivial).elim

theorem C98_complete (h : d.Has a b c e) (op : Op V) : Dict.runOp C d op = runOp (C.withStabs a b c e) op := by
  cases op with
  | getMatrix p => simp only [Dict.runOp, runOp, Dict.getSpacetimeMatrix, getSpacetimeMatrix, Dict.setupSpacetimeMatrix_eq h]; rfl
  | getBfi p => simp only [Dict.runOp, runOp, Dict.getSpacetimeBfi, getSpacetimeBfi, Dict.setupSpacetimeMatrix_eq h]; rfl
  | getRhs => simp only [Dict.runOp, runOp, Dict.getSpacetimeRhs, getSpacetimeRhs, Dict.setupRhs_eq h]
  | getLfi => simp only [Dict.runOp, runOp, Dict.getSpacetimeLfi, getSpacetimeLfi, Dict.setupRhs_eq h]
  | getSlabBfi => simp only [Dict.runOp, runOp, Dict.getSlabBfi, getSlabBfi, Dict.setupSlabMatrix_eq h]
  | getSlabMatrix => simp only [Dict.runOp, runOp, Dict.getSlabMatrix, getSlabMatrix, Dict.setupSlabMatrix_eq h]
  | prepare =>
    simp only [Dict.runOp, runOp, Dict.prepareGmres, prepareGmres, Dict.setupSlabMatrix_eq h, Dict.setupCoupling_eq h,
      Dict.setupRhs_eq h, Dict.setupScaledMass_eq h]
    rfl
  | pre x y => simp only [Dict.runOp, runOp, Dict.preTimeMarching, look_some h.jump, lift_ok_bind]; rfl
  | preImproved x y =>
    simp only [Dict.runOp, runOp, Dict.preTimeMarchingImproved, look_some h.jump, lift_ok_bind]
    rw [w_improved]
    simp only [preTimeMarchingImproved]
    by_cases hj : C.D.jumpsFw = true <;> simp only [hj] <;> rfl
  | prepareCoarse K =>
    simp only [Dict.runOp, runOp, Dict.prepareCoarse, look_some h.data, look_some h.dual, look_some h.primal, look_some h.jump,
      lift_ok_bind]
    rfl
  | setupSlab j => exact Dict.setupSlabMatrix_eq h j
  | setupCoupling => exact Dict.setupCoupling_eq h
  | setupScaledMass => exact Dict.setupScaledMass_eq h
  | setupRhs => exact Dict.setupRhs_eq h
  | setupMatrix p => simp only [Dict.runOp, runOp, Dict.setupSpacetimeMatrix_eq h]
  | _ => exact (Dict.runOp_other _ id).trans (runOp_withStabs _ id).symm

/-! ## Which keys a call reads -/

/-- The four keys. -/
def allKeys : List String := ["data", "dual", "primal", "primal-jump"]

/-- The keys a call reads, when made on an object with attributes `o`. -/
def Op.reads (C : Cfg V) (o : Obj V) : Op V → List String
  | .setupMatrix _ | .setupSlab _ | .prepareCoarse _ => allKeys
  | .getMatrix _ => if o.stMat.isNone then allKeys else []
  | .getBfi _ => if o.stBfi.isNone then allKeys else []
  | .getSlabMatrix => if o.slabMat.isNone then allKeys else []
  | .getSlabBfi => if o.slabBfi.isNone then allKeys else []
  | .setupRhs => ["primal-jump", "data"]
  | .getRhs => if o.rhs.isNone then ["primal-jump", "data"] else []
  | .getLfi => if o.lfi.isNone then ["primal-jump", "data"] else []
  | .setupCoupling | .setupScaledMass | .pre _ _ => ["primal-jump"]
  | .preImproved _ _ => if C.D.jumpsFw then [] else ["primal-jump"]
  | .prepare =>
    if o.slabMat.isNone || o.firstMat.isNone && !C.D.wellPosed then allKeys
    else if o.rhs.isNone then ["primal-jump", "data"]
    else if o.coupMat.isNone || o.bndMat.isNone then ["primal-jump"] else []
  | _ => []

theorem look_congr {key : String} (h : d key = d' key) : d.look key = d'.look key := by simp [StabDict.look, h]

section
variable (h : ∀ k ∈ allKeys, d k = d' k)
include h

theorem look_all {k : String} (hk : k ∈ allKeys) : d.look k = d'.look k := look_congr (h k hk)

theorem Dict.setupSpacetimeMatrix_congr (p : Bool) : Dict.setupSpacetimeMatrix C d p = Dict.setupSpacetimeMatrix C d' p := by
  simp only [Dict.setupSpacetimeMatrix, look_all h (k := "data") (by simp [allKeys]), look_all h (k := "dual") (by simp [allKeys]),
    look_all h (k := "primal") (by simp [allKeys]), look_all h (k := "primal-jump") (by simp [allKeys])]

theorem Dict.setupSlabMatrix_congr (j : Bool) : Dict.setupSlabMatrix C d j = Dict.setupSlabMatrix C d' j := by
  simp only [Dict.setupSlabMatrix, look_all h (k := "data") (by simp [allKeys]), look_all h (k := "dual") (by simp [allKeys]),
    look_all h (k := "primal") (by simp [allKeys]), look_all h (k := "primal-jump") (by simp [allKeys])]

end

theorem Dict.setupRhs_congr (h : d "primal-jump" = d' "primal-jump") (h' : d "data" = d' "data") :
    Dict.setupRhs C d = Dict.setupRhs C d' := by
  simp only [Dict.setupRhs, look_congr h, look_congr h']
theorem Dict.setupCoupling_congr (h : d "primal-jump" = d' "primal-jump") : Dict.setupCoupling C d = Dict.setupCoupling C d' := by
  simp only [Dict.setupCoupling, look_congr h]
theorem Dict.setupScaledMass_congr (h : d "primal-jump" = d' "primal-jump") :
    Dict.setupScaledMass C d = Dict.setupScaledMass C d' := by
  simp only [Dict.setupScaledMass, look_congr h]

/-- The end of `prepare_precondition_gmres`, from the coupling matrix on. -/
noncomputable def Dict.prepareTail (C : Cfg V) (d : StabDict) : WM V Unit := do
  let w ← M.get
  if w.obj.coupMat.isNone then Dict.setupCoupling C d
  let w ← M.get
  if w.obj.rhs.isNone then Dict.setupRhs C d
  let w ← M.get
  if w.obj.bndMat.isNone then Dict.setupScaledMass C d

theorem Dict.prepare_tail {w : World V} (h : (w.obj.slabMat.isNone || w.obj.firstMat.isNone && !C.D.wellPosed) = false) :
    Dict.prepareGmres C d w = Dict.prepareTail C d w := by
  rw [Bool.or_eq_false_iff] at h
  unfold Dict.prepareGmres
  rw [M.bind_ok (M.get_run w), h.1]
  simp only [Bool.false_eq_true, if_false]
  rw [M.bind_ok (M.get_run w), h.2]
  rfl

theorem frame_dictCoupling (d : StabDict) : Pres (Rel.frame fun o => o.rhs) (Dict.setupCoupling C d) := by
  unfold Dict.setupCoupling Dxss.setupCoupling
  pres_tac

theorem Dict.tail_congr {w : World V} (hr : w.obj.rhs.isNone = false)
    (h : (w.obj.coupMat.isNone || w.obj.bndMat.isNone) = true → d "primal-jump" = d' "primal-jump") :
    Dict.prepareTail C d w = Dict.prepareTail C d' w := by
  unfold Dict.prepareTail
  rw [M.bind_ok (M.get_run w), M.bind_ok (M.get_run w)]
  rcases hc : w.obj.coupMat with _ | A
  · have hj := h (by simp [hc])
    simp only [Option.isNone_none, if_true]
    rw [Dict.setupCoupling_congr hj]
    have hf := frame_dictCoupling (C := C) d' w
    change (Dict.setupCoupling C d' w).2.obj.rhs = w.obj.rhs at hf
    rcases he : Dict.setupCoupling C d' w with ⟨r, w'⟩
    rw [he] at hf
    simp only at hf
    cases r with
    | error e => rw [M.bind_error he, M.bind_error he]
    | ok u =>
      rw [M.bind_ok he, M.bind_ok he, M.bind_ok (M.get_run w'), M.bind_ok (M.get_run w'), hf, hr]
      simp only [Bool.false_eq_true, if_false, Dict.setupScaledMass_congr hj]
  · simp only [Option.isNone_some, Bool.false_eq_true, if_false]
    rw [M.bind_ok (M.get_run w), M.bind_ok (M.get_run w), hr]
    simp only [Bool.false_eq_true, if_false]
    rw [M.bind_ok (M.get_run w), M.bind_ok (M.get_run w)]
    rcases hb : w.obj.bndMat with _ | B
    · rw [Dict.setupScaledMass_congr (h (by simp [hb]))]
    · rfl

theorem void_congr {α : Type} {m m' : WM V α} {w : World V} (h : m w = m' w) : m.void w = m'.void w := by
  unfold M.void
  rw [M.bind_run, M.bind_run, h]

/-- C98: a call depends on the keys it reads only. -/
theorem C98_reads (op : Op V) (w : World V) (h : ∀ k ∈ op.reads C w.obj, d k = d' k) : Dict.runOp C d op w = Dict.runOp C d' op w := by
  cases op with
  | setupMatrix p => simp only [Dict.runOp, Dict.setupSpacetimeMatrix_congr h]
  | setupSlab j => simp only [Dict.runOp, Dict.setupSlabMatrix_congr h]
  | prepareCoarse K =>
    simp only [Dict.runOp, Dict.prepareCoarse, look_all h (k := "data") (by simp [allKeys]), look_all h (k := "dual") (by simp [allKeys]),
      look_all h (k := "primal") (by simp [allKeys]), look_all h (k := "primal-jump") (by simp [allKeys])]
  | getMatrix p =>
    refine void_congr ?_
    have : Dict.getSpacetimeMatrix C d p w = Dict.getSpacetimeMatrix C d' p w := by
      unfold Dict.getSpacetimeMatrix
      rw [M.bind_ok (M.get_run w), M.bind_ok (M.get_run w)]
      rcases hm : w.obj.stMat with _ | A
      · rw [Dict.setupSpacetimeMatrix_congr (d' := d') (by simpa [Op.reads, hm] using h)]
      · rfl
    exact this
  | getBfi p =>
    refine void_congr ?_
    have : Dict.getSpacetimeBfi C d p w = Dict.getSpacetimeBfi C d' p w := by
      unfold Dict.getSpacetimeBfi
      rw [M.bind_ok (M.get_run w), M.bind_ok (M.get_run w)]
      rcases hm : w.obj.stBfi with _ | A
      · rw [Dict.setupSpacetimeMatrix_congr (d' := d') (by simpa [Op.reads, hm] using h)]
      · rfl
    exact this
  | getSlabMatrix =>
    refine void_congr ?_
    unfold Dict.getSlabMatrix
    rw [M.bind_ok (M.get_run w), M.bind_ok (M.get_run w)]
    rcases hm : w.obj.slabMat with _ | A
    · have ha : ∀ k ∈ allKeys, d k = d' k := by simpa [Op.reads, hm] using h
      simp only [Dict.setupSlabMatrix_congr ha]
    · rfl
  | getSlabBfi =>
    refine void_congr ?_
    unfold Dict.getSlabBfi
    rw [M.bind_ok (M.get_run w), M.bind_ok (M.get_run w)]
    rcases hm : w.obj.slabBfi with _ | A
    · have ha : ∀ k ∈ allKeys, d k = d' k := by simpa [Op.reads, hm] using h
      simp only [Dict.setupSlabMatrix_congr ha]
    · rfl
  | setupRhs => simp only [Dict.runOp, Dict.setupRhs_congr (h "primal-jump" (by simp [Op.reads])) (h "data" (by simp [Op.reads]))]
  | getRhs =>
    refine void_congr ?_
    unfold Dict.getSpacetimeRhs
    rw [M.bind_ok (M.get_run w), M.bind_ok (M.get_run w)]
    rcases hm : w.obj.rhs with _ | A
    · rw [Dict.setupRhs_congr (h "primal-jump" (by simp [Op.reads, hm])) (h "data" (by simp [Op.reads, hm]))]
    · rfl
  | getLfi =>
    refine void_congr ?_
    unfold Dict.getSpacetimeLfi
    rw [M.bind_ok (M.get_run w), M.bind_ok (M.get_run w)]
    rcases hm : w.obj.lfi with _ | A
    · rw [Dict.setupRhs_congr (h "primal-jump" (by simp [Op.reads, hm])) (h "data" (by simp [Op.reads, hm]))]
    · rfl
  | setupCoupling => simp only [Dict.runOp, Dict.setupCoupling_congr (h "primal-jump" (by simp [Op.reads]))]
  | setupScaledMass => simp only [Dict.runOp, Dict.setupScaledMass_congr (h "primal-jump" (by simp [Op.reads]))]
  | pre x y => simp only [Dict.runOp, Dict.preTimeMarching, look_congr (h "primal-jump" (by simp [Op.reads]))]
  | preImproved x y =>
    simp only [Dict.runOp, Dict.preTimeMarchingImproved]
    by_cases hj : C.D.jumpsFw = true
    · simp only [hj]; rfl
    · rw [look_congr (h "primal-jump" (by simp [Op.reads, hj]))]
  | prepare =>
    simp only [Dict.runOp]
    cases hc : (w.obj.slabMat.isNone || w.obj.firstMat.isNone && !C.D.wellPosed) with
    | true =>
      have ha : ∀ k ∈ allKeys, d k = d' k := by
        intro k hk
        refine h k ?_
        simp only [Op.reads, hc, if_true]
        exact hk
      have hj := ha "primal-jump" (by simp [allKeys])
      simp only [Dict.prepareGmres, Dict.setupSlabMatrix_congr ha, Dict.setupCoupling_congr hj,
        Dict.setupRhs_congr hj (ha "data" (by simp [allKeys])), Dict.setupScaledMass_congr hj]
    | false =>
      rw [Dict.prepare_tail hc, Dict.prepare_tail hc]
      cases hr : w.obj.rhs.isNone with
      | true =>
        have hj := h "primal-jump" (by simp [Op.reads, hc, hr])
        simp only [Dict.prepareTail, Dict.setupCoupling_congr hj,
          Dict.setupRhs_congr hj (h "data" (by simp [Op.reads, hc, hr])), Dict.setupScaledMass_congr hj]
      | false => exact Dict.tail_congr hr fun hb => h "primal-jump" (by simp only [Op.reads, hc, hr, hb]; simp)
  | _ => rfl

/-! ## A missing key -/

section
variable {w : World V}

theorem look_none {key : String} (h : d key = none) : d.look key = .error .keyError := by simp [StabDict.look, h]

/-- Reading the four keys when one is missing. -/
theorem read_all_missing {β : Type} {k : String} (hk : k ∈ allKeys) (h : d k = none) (f : ℝ → ℝ → ℝ → ℝ → WM V β) :
    (do
      let gData ← M.lift (d.look "data")
      let gDual ← M.lift (d.look "dual")
      let gPrimal ← M.lift (d.look "primal")
      let gJump ← M.lift (d.look "primal-jump")
      f gData gDual gPrimal gJump : WM V β) w = (.error .keyError, w) := by
  rcases h1 : d "data" with _ | a
  · rw [look_none h1]; rfl
  rcases h2 : d "dual" with _ | b
  · rw [look_some h1, look_none h2]; rfl
  rcases h3 : d "primal" with _ | c
  · rw [look_some h1, look_some h2, look_none h3]; rfl
  rcases h4 : d "primal-jump" with _ | e
  · rw [look_some h1, look_some h2, look_some h3, look_none h4]; rfl
  · simp only [allKeys, List.mem_cons, List.not_mem_nil, or_false] at hk
    rcases hk with rfl | rfl | rfl | rfl
    · rw [h] at h1; cases h1
    · rw [h] at h2; cases h2
    · rw [h] at h3; cases h3
    · rw [h] at h4; cases h4

theorem Dict.setupSpacetimeMatrix_missing (hd : w.obj.dofmaps ≠ none) {k : String} (hk : k ∈ allKeys) (h : d k = none) (p : Bool) :
    Dict.setupSpacetimeMatrix C d p w = (.error .keyError, w) := by
  obtain ⟨x, hx⟩ := Option.ne_none_iff_exists'.1 hd
  unfold Dict.setupSpacetimeMatrix
  rw [M.bind_ok (M.attr_some (by exact hx))]
  exact read_all_missing hk h _

theorem Dict.setupSlabMatrix_missing (hd : w.obj.dofmaps ≠ none) {k : String} (hk : k ∈ allKeys) (h : d k = none) (j : Bool) :
    Dict.setupSlabMatrix C d j w = (.error .keyError, w) := by
  obtain ⟨x, hx⟩ := Option.ne_none_iff_exists'.1 hd
  unfold Dict.setupSlabMatrix
  rw [M.bind_ok (M.attr_some (by exact hx))]
  exact read_all_missing hk h _

theorem Dict.setupRhs_missing (hd : w.obj.dofmaps ≠ none) {k : String} (hk : k ∈ ["primal-jump", "data"]) (h : d k = none) :
    Dict.setupRhs C d w = (.error .keyError, w) := by
  obtain ⟨x, hx⟩ := Option.ne_none_iff_exists'.1 hd
  unfold Dict.setupRhs
  rw [M.bind_ok (M.attr_some (by exact hx))]
  rcases h1 : d "primal-jump" with _ | a
  · rw [look_none h1]; rfl
  rcases h2 : d "data" with _ | b
  · rw [look_some h1, look_none h2]; rfl
  simp only [List.mem_cons, List.not_mem_nil, or_false] at hk
  rcases hk with rfl | rfl
  · rw [h] at h1; cases h1
  · rw [h] at h2; cases h2

theorem Dict.setupCoupling_missing (hd : w.obj.dofmaps ≠ none) (h : d "primal-jump" = none) :
    Dict.setupCoupling C d w = (.error .keyError, w) := by
  obtain ⟨x, hx⟩ := Option.ne_none_iff_exists'.1 hd
  unfold Dict.setupCoupling
  rw [M.bind_ok (M.attr_some (by exact hx)), look_none h]
  rfl

theorem Dict.setupScaledMass_missing (hd : w.obj.dofmaps ≠ none) (h : d "primal-jump" = none) :
    Dict.setupScaledMass C d w = (.error .keyError, w) := by
  obtain ⟨x, hx⟩ := Option.ne_none_iff_exists'.1 hd
  unfold Dict.setupScaledMass
  rw [M.bind_ok (M.attr_some (by exact hx)), look_none h]
  rfl

theorem void_error {α : Type} {m : WM V α} {e : PyErr} (h : m w = (.error e, w)) : m.void w = (.error e, w) := by
  unfold M.void
  exact M.bind_error h

/-- `prepare_precondition_gmres` with a key it reads missing: unchanged unless the coupling matrix is built before the missing key is
noticed. -/
theorem Dict.prepare_missing (hd : w.obj.dofmaps ≠ none) {k : String} (hk : k ∈ (Op.prepare (V := V)).reads C w.obj) (h : d k = none)
    (hc : w.obj.slabMat = none ∨ w.obj.coupMat ≠ none ∨ d "primal-jump" = none) :
    Dict.prepareGmres C d w = (.error .keyError, w) := by
  cases hf : (w.obj.slabMat.isNone || w.obj.firstMat.isNone && !C.D.wellPosed) with
  | true =>
    have hk' : k ∈ allKeys := by simpa only [Op.reads, hf, if_true] using hk
    unfold Dict.prepareGmres
    rw [M.bind_ok (M.get_run w)]
    cases hs : w.obj.slabMat.isNone with
    | true =>
      simp only [if_true]
      rw [M.bind_error (Dict.setupSlabMatrix_missing hd hk' h true)]
    | false =>
      simp only [Bool.false_eq_true, if_false]
      rw [hs, Bool.false_or] at hf
      rw [M.bind_ok (M.get_run w), hf]
      simp only [if_true]
      rw [M.bind_error (Dict.setupSlabMatrix_missing hd hk' h false)]
  | false =>
    rw [Dict.prepare_tail hf]
    unfold Dict.prepareTail
    rw [M.bind_ok (M.get_run w)]
    have hs : w.obj.slabMat ≠ none := fun hn => by simp [hn] at hf
    simp only [Op.reads, hf, Bool.false_eq_true, if_false] at hk
    rcases hcm : w.obj.coupMat with _ | A
    · have hj : d "primal-jump" = none := by
        rcases hc with hc | hc | hc
        · exact absurd hc hs
        · exact absurd hcm hc
        · exact hc
      simp only [Option.isNone_none, if_true]
      rw [M.bind_error (Dict.setupCoupling_missing hd hj)]
    · simp only [Option.isNone_some, Bool.false_eq_true, if_false]
      rw [M.bind_ok (M.get_run w)]
      cases hr : w.obj.rhs.isNone with
      | true =>
        rw [hr] at hk
        simp only [if_true] at hk ⊢
        rw [M.bind_error (Dict.setupRhs_missing hd hk h)]
      | false =>
        rw [hr, hcm] at hk
        simp only [Bool.false_eq_true, if_false, Option.isNone_some, Bool.false_or] at hk ⊢
        rw [M.bind_ok (M.get_run w)]
        cases hb : w.obj.bndMat.isNone with
        | true =>
          rw [hb] at hk
          simp only [if_true, List.mem_singleton] at hk ⊢
          subst hk
          exact Dict.setupScaledMass_missing hd h
        | false =>
          rw [hb] at hk
          simp at hk

/-- C98: a missing key is reported, and the call has no effect.  `prepare_coarse_grid_correction` and the building of the coupling
matrix in `prepare_precondition_gmres` precede a look-up. -/
theorem C98_missing (op : Op V) (hd : w.obj.dofmaps ≠ none) {k : String} (hk : k ∈ op.reads C w.obj) (h : d k = none)
    (hop : ∀ K, op ≠ .prepareCoarse K)
    (hp : op = .prepare → w.obj.slabMat = none ∨ w.obj.coupMat ≠ none ∨ d "primal-jump" = none) :
    Dict.runOp C d op w = (.error .keyError, w) := by
  cases op with
  | setupMatrix p => exact void_error (Dict.setupSpacetimeMatrix_missing hd hk h p)
  | setupSlab j => exact Dict.setupSlabMatrix_missing hd hk h j
  | prepareCoarse K => exact absurd rfl (hop K)
  | getMatrix p =>
    refine void_error ?_
    unfold Dict.getSpacetimeMatrix
    rw [M.bind_ok (M.get_run w)]
    rcases hm : w.obj.stMat with _ | A
    · exact M.bind_error (Dict.setupSpacetimeMatrix_missing hd (by simpa [Op.reads, hm] using hk) h p)
    · simp [Op.reads, hm] at hk
  | getBfi p =>
    refine void_error ?_
    unfold Dict.getSpacetimeBfi
    rw [M.bind_ok (M.get_run w)]
    rcases hm : w.obj.stBfi with _ | A
    · exact M.bind_error (Dict.setupSpacetimeMatrix_missing hd (by simpa [Op.reads, hm] using hk) h p)
    · simp [Op.reads, hm] at hk
  | getSlabMatrix =>
    refine void_error ?_
    unfold Dict.getSlabMatrix
    rw [M.bind_ok (M.get_run w)]
    rcases hm : w.obj.slabMat with _ | A
    · exact M.bind_error (Dict.setupSlabMatrix_missing hd (by simpa [Op.reads, hm] using hk) h true)
    · simp [Op.reads, hm] at hk
  | getSlabBfi =>
    refine void_error ?_
    unfold Dict.getSlabBfi
    rw [M.bind_ok (M.get_run w)]
    rcases hm : w.obj.slabBfi with _ | A
    · exact M.bind_error (Dict.setupSlabMatrix_missing hd (by simpa [Op.reads, hm] using hk) h true)
    · simp [Op.reads, hm] at hk
  | setupRhs => exact Dict.setupRhs_missing hd hk h
  | getRhs =>
    refine void_error ?_
    unfold Dict.getSpacetimeRhs
    rw [M.bind_ok (M.get_run w)]
    rcases hm : w.obj.rhs with _ | A
    · exact M.bind_error (Dict.setupRhs_missing hd (by simpa [Op.reads, hm] using hk) h)
    · simp [Op.reads, hm] at hk
  | getLfi =>
    refine void_error ?_
    unfold Dict.getSpacetimeLfi
    rw [M.bind_ok (M.get_run w)]
    rcases hm : w.obj.lfi with _ | A
    · exact M.bind_error (Dict.setupRhs_missing hd (by simpa [Op.reads, hm] using hk) h)
    · simp [Op.reads, hm] at hk
  | setupCoupling =>
    simp only [Op.reads, List.mem_singleton] at hk
    subst hk
    exact Dict.setupCoupling_missing hd h
  | setupScaledMass =>
    simp only [Op.reads, List.mem_singleton] at hk
    subst hk
    exact Dict.setupScaledMass_missing hd h
  | pre x y =>
    simp only [Op.reads, List.mem_singleton] at hk
    subst hk
    simp only [Dict.runOp, Dict.preTimeMarching, look_none h]
    rfl
  | preImproved x y =>
    by_cases hj : C.D.jumpsFw = true
    · simp [Op.reads, hj] at hk
    · simp only [Op.reads, hj, if_false, List.mem_singleton, Bool.false_eq_true] at hk
      subst hk
      simp only [Dict.runOp, Dict.preTimeMarchingImproved, look_none h, hj, if_false, Bool.false_eq_true]
      rfl
  | prepare => exact Dict.prepare_missing hd hk h (hp rfl)
  | _ => simp [Op.reads] at hk

theorem Dict.setupCoupling_noFail (hs : w.NoFail) (hd : w.obj.dofmaps ≠ none) (h : d "primal-jump" = some e) :
    ∃ w', Dict.setupCoupling C d w = (.ok (), w') ∧ w'.obj.dofmaps = w.obj.dofmaps ∧ w'.obj.rhs = w.obj.rhs := by
  obtain ⟨x, hx⟩ := Option.ne_none_iff_exists'.1 hd
  obtain ⟨o, hp, s, c⟩ := w
  have h' : ∀ k, s (c + k) = false := fun k => hs _ (Nat.le_add_right _ _)
  have h0 : s c = false := h' 0
  simp only at hx
  unfold Dict.setupCoupling Dxss.setupCoupling
  simp only [look_some h, M.bind_run, M.attr, hx, M.lift, ext, modObj, M.modify, setVec, h0, add_assoc, h', Bool.false_eq_true,
    if_false]
  exact ⟨_, rfl, rfl, rfl⟩

/-- C98: every call that needs a missing key raises `KeyError`, when nothing else fails. -/
theorem C98_missing_reported (hs : w.NoFail) (op : Op V) (hd : w.obj.dofmaps ≠ none) {k : String} (hk : k ∈ op.reads C w.obj)
    (h : d k = none) : (Dict.runOp C d op w).1 = .error .keyError := by
  by_cases hop : ∃ K, op = .prepareCoarse K
  · obtain ⟨K, rfl⟩ := hop
    obtain ⟨x, hx⟩ := Option.ne_none_iff_exists'.1 hd
    have he : (ext : WM V Unit) w = (.ok (), { w with clock := w.clock + 1 }) := by simp [ext, hs w.clock le_rfl]
    simp only [Dict.runOp, Dict.prepareCoarse]
    rw [M.bind_ok he, M.bind_ok (by rfl), M.bind_ok (M.attr_some (by exact hx)), M.bind_ok (by rfl), M.bind_ok (by rfl),
      M.bind_ok (by rfl)]
    rw [read_all_missing (by exact hk) h]
  · by_cases hp : op = .prepare → w.obj.slabMat = none ∨ w.obj.coupMat ≠ none ∨ d "primal-jump" = none
    · rw [C98_missing op hd hk h (fun K hK => hop ⟨K, hK⟩) hp]
    · push Not at hp
      obtain ⟨rfl, hm, hc, hj⟩ := hp
      obtain ⟨e, he⟩ := Option.ne_none_iff_exists'.1 hj
      simp only [Dict.runOp]
      cases hf : (w.obj.slabMat.isNone || w.obj.firstMat.isNone && !C.D.wellPosed) with
      | true =>
        have hk' : k ∈ allKeys := by simpa only [Op.reads, hf, if_true] using hk
        have hs : w.obj.slabMat.isNone = false := by cases hq : w.obj.slabMat <;> simp_all
        unfold Dict.prepareGmres
        rw [M.bind_ok (M.get_run w), hs]
        simp only [Bool.false_eq_true, if_false]
        rw [hs, Bool.false_or] at hf
        rw [M.bind_ok (M.get_run w), hf]
        simp only [if_true]
        rw [M.bind_error (Dict.setupSlabMatrix_missing hd hk' h false)]
      | false =>
        rw [Dict.prepare_tail hf]
        unfold Dict.prepareTail
        rw [M.bind_ok (M.get_run w), hc]
        simp only [Option.isNone_none, if_true]
        obtain ⟨w', e1, e2, e3⟩ := Dict.setupCoupling_noFail (C := C) hs hd he
        rw [M.bind_ok e1, M.bind_ok (M.get_run w'), e3]
        simp only [Op.reads, hf, Bool.false_eq_true, if_false, hc, Option.isNone_none, Bool.true_or, if_true] at hk
        cases hr : w.obj.rhs.isNone with
        | true =>
          rw [hr] at hk
          simp only [if_true] at hk ⊢
          rw [M.bind_error (Dict.setupRhs_missing (by rw [e2]; exact hd) hk h)]
        | false =>
          rw [hr] at hk
          simp only [Bool.false_eq_true, if_false, List.mem_singleton] at hk
          subst hk
          rw [h] at he; cases he

end

/-! ## Non-vacuity -/

namespace Example
open Polynomial

/-- The dictionary of the scripts (solve_1d.py:71-76 and the like), with a further entry. -/
noncomputable def someDict : StabDict := fun k =>
  if k = "data" then some 1e4 else if k = "dual" then some 1 else if k = "primal" then some 1e-3
  else if k = "primal-jump" then some 1 else if k = "unused" then some 7 else none

theorem someDict_has : someDict.Has 1e4 1 1e-3 1 := by
  constructor <;> simp [someDict]

example (heap : Ref → Vec) := congrFun (C98_complete (C := cfg false false) someDict_has .prepare) (freshWorld heap)

/-- Without the entry nobody reads. -/
example (heap : Ref → Vec) (op : Op ℝ[X]) : Dict.runOp (cfg false false) someDict op (freshWorld heap) =
    Dict.runOp (cfg false false) (Function.update someDict "unused" none) op (freshWorld heap) :=
  C98_reads op _ fun k hk => by
    have : k ≠ "unused" := by
      rintro rfl
      cases op <;> simp [Op.reads, allKeys, cfg, disc, freshWorld] at hk
    rw [Function.update_of_ne this]

/-- `"primal"` is missing: requests for the slab matrix fail, the coupling matrix can be built. -/
noncomputable def noPrimal : StabDict := Function.update someDict "primal" none

theorem fresh_setUp_dofmaps (heap : Ref → Vec) : (runOp (cfg false false) .setupFE (freshWorld heap)).2.obj.dofmaps ≠ none := by
  have := (setupFE_fresh (C := cfg false false) (freshWorld_fresh heap) (freshWorld_noFail heap)).2
  change (setupFE (cfg false false) (freshWorld heap)).2.obj.dofmaps ≠ none
  rw [this]
  simp [setUpObj]

example (heap : Ref → Vec) := C98_missing (C := cfg false false) (d := noPrimal) .getSlabMatrix (fresh_setUp_dofmaps heap) (k := "primal")
  (by
    have := (setupFE_fresh (C := cfg false false) (freshWorld_fresh heap) (freshWorld_noFail heap)).2
    change "primal" ∈ Op.reads _ (setupFE (cfg false false) (freshWorld heap)).2.obj _
    rw [this]
    simp [Op.reads, setUpObj, allKeys])
  (by simp [noPrimal]) (fun K h => by cases h) (fun h => by cases h)

end Example

end Dxss
