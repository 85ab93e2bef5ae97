import Verif.Model.Construct
import Verif.Lemmas.Assembly
import Verif.Props.Forms
import Verif.Props.TimeBasis
import Verif.Props.MatrixFree

/-!
# Properties C35 and C36: the constructor
-/

namespace Dxss
open Finset
set_option linter.unusedSectionVars false
variable {V : Type} [AddCommGroup V] [Module ℝ V] {interp : V →ₗ[ℝ] V} {a : Args V} {om : DataDomain V}

/-- Supported orders. -/
def Args.Supported (a : Args V) : Prop :=
  (0 ≤ a.otime.q ∧ a.otime.q ≤ 3) ∧ (0 ≤ a.otime.qstar ∧ a.otime.qstar ≤ 3)

/-! ## C36 -/

theorem getElmatTimeInt_ok {q qs : ℤ} (h : (0 ≤ q ∧ q ≤ 3) ∧ (0 ≤ qs ∧ qs ≤ 3)) :
    getElmatTimeInt q qs = .ok (elmatOf q.toNat qs.toNat) := by
  rw [getElmatTimeInt, if_pos ⟨h.1.1, h.2.1⟩]
  exact getElmatTime_ok (by omega) (by omega)

theorem getElmatTimeInt_error {q qs : ℤ} (h : ¬ ((0 ≤ q ∧ q ≤ 3) ∧ (0 ≤ qs ∧ qs ≤ 3))) :
    getElmatTimeInt q qs = .error .keyError := by
  rw [getElmatTimeInt]
  split
  · exact getElmatTime_error (by omega)
  · rfl

theorem basisInTimeInt_ok {q : ℤ} (h : 0 ≤ q ∧ q ≤ 3) :
    ∃ b, basisInTime q.toNat = some b ∧ basisInTimeInt q = .ok b := by
  obtain ⟨h1, h2⟩ := h
  rw [basisInTimeInt, if_pos h1]
  have : q.toNat ≤ 3 := by omega
  generalize q.toNat = n at this
  interval_cases n <;> exact ⟨_, rfl, rfl⟩

/-- What a successful construction stores, and the state of the caller's data domain. -/
noncomputable def builtOf (interp : V →ₗ[ℝ] V) (a : Args V) (om : DataDomain V) (b : List (ℝ → ℝ) × List (ℝ → ℝ)) :
    Built V :=
  { D := { q := a.otime.q.toNat, qstar := a.otime.qstar.toNat, N := a.N.toNat, dt := a.T / a.N
           lam := 5 * (a.ospace.k : ℝ) ^ 2
           eps := if a.otime.qstar = 0 then 1e-15 else 0, E := elmatOf a.otime.q.toNat a.otime.qstar.toNat
           gData := a.stabs.data, gDual := a.stabs.dual, gPrimal := a.stabs.primal, gJump := a.stabs.primalJump
           jumpsFw := a.parameters.jumpsInFwProblem, wellPosed := a.parameters.wellPosed
           ind := if om.fitted then interp 0 else om.indicator, sol := a.sol }
    N := a.N, q := a.otime.q, qstar := a.otime.qstar, phi := b.1, dphi := b.2
    qr := ⟨"Gauss-Radau", 4, gaussRadau 4⟩, qrHo := ⟨"Gauss-Radau", 5, gaussRadau 5⟩
    T := a.T, t := a.t, dsol := a.dsol, samples := linspace 0 a.T 105 }

theorem construct_run (hN : a.N ≠ 0) (hs : a.Supported) :
    ∃ b, basisInTime a.otime.q.toNat = some b ∧ construct interp a om
      = (.ok (builtOf interp a om b), if om.fitted then { om with indicator := interp 0 } else om) := by
  obtain ⟨b, hb, hb'⟩ := basisInTimeInt_ok hs.1
  refine ⟨b, hb, ?_⟩
  have h4 : mkQuadRule "Gauss-Radau" 4 = .ok ⟨"Gauss-Radau", 4, gaussRadau 4⟩ := rfl
  have h5 : mkQuadRule "Gauss-Radau" 5 = .ok ⟨"Gauss-Radau", 5, gaussRadau 5⟩ := rfl
  cases hf : om.fitted <;>
  simp [construct, hN, M.bind_run, M.lift, ProblemParameters.iter, unpack2, getElmatTimeInt_ok hs, h4, h5, hb', M.get,
    hf, M.modify, builtOf] <;> rfl

/-- C36, `ZeroDivisionError`: exactly for `N = 0`. -/
theorem C36_zero_division : (construct interp a om).1 = .error .zeroDivision ↔ a.N = 0 := by
  constructor
  · intro h
    by_contra hN
    by_cases hs : a.Supported
    · obtain ⟨b, -, e⟩ := construct_run (interp := interp) (om := om) hN hs
      rw [e] at h; cases h
    · have he := getElmatTimeInt_error hs
      simp [construct, hN, M.bind_run, M.lift, ProblemParameters.iter, unpack2, he] at h
  · intro hN
    simp [construct, hN, M.bind_run, M.raise]

/-- C36, `KeyError`: exactly for unsupported orders (when `N ≠ 0`). -/
theorem C36_key_error : (construct interp a om).1 = .error .keyError ↔ a.N ≠ 0 ∧ ¬ a.Supported := by
  constructor
  · intro h
    refine ⟨fun hN => ?_, fun hs => ?_⟩
    · rw [C36_zero_division.2 hN] at h; cases h
    · by_cases hN : a.N = 0
      · rw [C36_zero_division.2 hN] at h; cases h
      · obtain ⟨b, -, e⟩ := construct_run (interp := interp) (om := om) hN hs
        rw [e] at h; cases h
  · rintro ⟨hN, hs⟩
    have he := getElmatTimeInt_error hs
    simp [construct, hN, M.bind_run, M.lift, ProblemParameters.iter, unpack2, he]

/-- C36, a failing construction leaves the caller's data domain alone. -/
theorem C36_failure_frame (e : PyErr) (h : (construct interp a om).1 = .error e) : (construct interp a om).2 = om := by
  by_cases hN : a.N = 0
  · simp [construct, hN, M.bind_run, M.raise]
  by_cases hs : a.Supported
  · obtain ⟨b, -, e'⟩ := construct_run (interp := interp) (om := om) hN hs
    rw [e'] at h; cases h
  · have he := getElmatTimeInt_error hs
    simp [construct, hN, M.bind_run, M.lift, ProblemParameters.iter, unpack2, he]

/-- C36, derived parameters: otherwise construction succeeds, with the step length, penalty,
offset, weights, flags and time basis as stated. -/
theorem C36_derived (hN : a.N ≠ 0) (hs : a.Supported) :
    ∃ B om', construct interp a om = (.ok B, om') ∧
      B.D.dt = a.T / a.N ∧ B.D.lam = 5 * (a.ospace.k : ℝ) ^ 2 ∧
      (B.D.eps = 1e-15 ↔ a.otime.qstar = 0) ∧ (B.D.eps = 0 ↔ a.otime.qstar ≠ 0) ∧
      B.D.jumpsFw = a.parameters.jumpsInFwProblem ∧ B.D.wellPosed = a.parameters.wellPosed ∧
      (B.D.gData, B.D.gDual, B.D.gPrimal, B.D.gJump) = (a.stabs.data, a.stabs.dual, a.stabs.primal, a.stabs.primalJump) ∧
      ((B.D.q : ℤ), (B.D.qstar : ℤ)) = (a.otime.q, a.otime.qstar) ∧ (0 < a.N → (B.D.N : ℤ) = a.N) ∧
      (a.T ≠ 0 → B.D.Ok) ∧ basisInTime B.D.q = some (B.phi, B.dphi) ∧ B.samples.length = 105 ∧
      (∀ i : ℕ, i < 105 → B.samples[i]? = some (i * a.T / 104)) ∧
      mkQuadRule "Gauss-Radau" 4 = .ok B.qr ∧ mkQuadRule "Gauss-Radau" 5 = .ok B.qrHo ∧
      B.T = a.T ∧ B.t = a.t ∧ B.D.sol = a.sol ∧ B.dsol = a.dsol ∧ B.N = a.N ∧ B.q = a.otime.q ∧ B.qstar = a.otime.qstar := by
  obtain ⟨b, hb, e⟩ := construct_run (interp := interp) (om := om) hN hs
  refine ⟨_, _, e, rfl, rfl, ?_, ?_, rfl, rfl, rfl, ?_, fun h => ?_, fun hT => ⟨?_, ?_⟩, hb, by simp [builtOf, linspace],
    fun i hi => ?_, rfl, rfl, rfl, rfl, rfl, rfl, rfl, rfl, rfl⟩
  · simp only [builtOf]; split <;> norm_num [*]
  · simp only [builtOf]; split <;> norm_num [*]
  · simp only [builtOf, Int.toNat_of_nonneg hs.1.1, Int.toNat_of_nonneg hs.2.1]
  · exact Int.toNat_of_nonneg h.le
  · obtain ⟨⟨h1, h2⟩, h3, h4⟩ := hs
    exact getElmatTime_ok (by simp [builtOf]; omega) (by simp [builtOf]; omega)
  · exact div_ne_zero hT (by exact_mod_cast hN)
  · have : (105 : ℝ) - 1 = 104 := by norm_num
    simp [builtOf, linspace, hi, this, mul_div_assoc]

/-- C36: unpacking `ProblemParameters` yields `(jumps_in_fw_problem, well_posed)` and never raises. -/
theorem C36_unpacking (p : ProblemParameters) :
    unpack2 p.iter = .ok (p.jumpsInFwProblem, p.wellPosed) ∧
      (({} : ProblemParameters).jumpsInFwProblem, ({} : ProblemParameters).wellPosed) = (false, false) := ⟨rfl, rfl⟩

/-! ## C35 -/

/-- The indicator a caller expects to be used: the supplied one, interpolated if the mesh is fitted. -/
def DataDomain.expected (interp : V →ₗ[ℝ] V) (om : DataDomain V) : V :=
  if om.fitted then interp om.indicator else om.indicator

/-- The full statement of C35: data term and right-hand side use the supplied indicator.
It is false, see `C35_violated`. -/
def C35_statement (V : Type) [AddCommGroup V] [Module ℝ V] : Prop :=
  ∀ (interp : V →ₗ[ℝ] V) (a : Args V) (om : DataDomain V) (B : Built V) (om' : DataDomain V),
    construct interp a om = (.ok B, om') →
    ∀ (S : Space V),
      (∀ (c : Counters) (U W : Field V),
        evalForm S B.D.ind (B.D.stData c) U W = evalForm S (om.expected interp) (B.D.stData c) U W) ∧
      ∀ (pts ws : List ℝ) (u v : V) (W : Field V),
        evalLin S B.D.ind (B.D.rhsForm S pts ws u v) W = evalLin S (om.expected interp) (B.D.rhsForm S pts ws u v) W

/-- C35, what does hold: for `fitted=False` the supplied indicator is used, and the caller's object is
unchanged. -/
theorem C35_unfitted_partial (hf : om.fitted = false) {B : Built V} {om' : DataDomain V}
    (h : construct interp a om = (.ok B, om')) : B.D.ind = om.indicator ∧ om' = om := by
  have hN : a.N ≠ 0 := fun hN => by rw [Prod.ext_iff, C36_zero_division.2 hN] at h; cases h.1
  have hs : a.Supported := by
    by_contra hs; rw [Prod.ext_iff, C36_key_error.2 ⟨hN, hs⟩] at h; cases h.1
  obtain ⟨b, -, e⟩ := construct_run (interp := interp) (om := om) hN hs
  rw [e] at h
  obtain ⟨h1, h2⟩ := Prod.ext_iff.1 h
  have h1' := Except.ok.inj h1
  simp only [hf, if_true, if_false, Bool.false_eq_true] at h2
  simp [← h1', ← h2, builtOf, hf]

/-- With `fitted=True` the supplied indicator is discarded: it is replaced by zero, also in the
caller's object. -/
theorem C35_fitted_discards (hf : om.fitted = true) {B : Built V} {om' : DataDomain V}
    (h : construct interp a om = (.ok B, om')) : B.D.ind = 0 ∧ om'.indicator = 0 := by
  have hN : a.N ≠ 0 := fun hN => by rw [Prod.ext_iff, C36_zero_division.2 hN] at h; cases h.1
  have hs : a.Supported := by
    by_contra hs; rw [Prod.ext_iff, C36_key_error.2 ⟨hN, hs⟩] at h; cases h.1
  obtain ⟨b, -, e⟩ := construct_run (interp := interp) (om := om) hN hs
  rw [e] at h
  obtain ⟨h1, h2⟩ := Prod.ext_iff.1 h
  have h1' := Except.ok.inj h1
  simp only [hf, if_true, if_false, Bool.false_eq_true] at h2
  simp [← h1', ← h2, builtOf, hf]

/-- Consequence: with `fitted=True` the data term of every form vanishes. -/
theorem C35_no_data_term (hf : om.fitted = true) {B : Built V} {om' : DataDomain V}
    (h : construct interp a om = (.ok B, om')) (S : Space V) (c : Counters) (U W : Field V) :
    evalForm S B.D.ind (B.D.stData c) U W = 0 ∧ evalForm S B.D.ind B.D.slabData U W = 0 := by
  rw [(C35_fitted_discards hf h).1]
  constructor
  · rw [Disc.stData, evalForm_loop2]
    simp [evalForm_cons, Term.eval, SOp.eval]
  · rw [Disc.slabData, evalForm_loop2]
    simp [evalForm_cons, Term.eval, SOp.eval]

/-- Consequence: with `fitted=True` and `well_posed=False` the right-hand side consists of the
`1e-20` placeholder only; it does not depend on the measured data `solution`. -/
theorem C35_no_data_in_rhs (hf : om.fitted = true) (hwp : a.parameters.wellPosed = false) {B : Built V}
    {om' : DataDomain V} (h : construct interp a om = (.ok B, om')) (S : Space V) (pts ws : List ℝ) (u v : V)
    (W : Field V) :
    evalLin S B.D.ind (B.D.rhsForm S pts ws u v) W = 1e-20 * S.mass S.one (W 2 0) := by
  have hN : a.N ≠ 0 := fun hN => by rw [Prod.ext_iff, C36_zero_division.2 hN] at h; cases h.1
  have hs : a.Supported := by
    by_contra hs; rw [Prod.ext_iff, C36_key_error.2 ⟨hN, hs⟩] at h; cases h.1
  have hw : B.D.wellPosed = false := by
    obtain ⟨b, -, e⟩ := construct_run (interp := interp) (om := om) hN hs
    rw [e] at h
    rw [← Except.ok.inj (Prod.ext_iff.1 h).1]; exact hwp
  rw [(C35_fitted_discards hf h).1, Disc.rhsForm, evalLin_cons, evalLin_slabLoop]
  simp only [Disc.rhsBody, hw, Bool.and_false, Bool.false_eq_true, if_false, List.append_nil]
  have z : ∀ (c : Counters) (n : ℕ), evalLin S 0 ((pts.zip ws).map fun p =>
      (⟨B.D.gData * B.D.dt * p.2, .omega, B.D.sol (n * B.D.dt + B.D.dt * p.1), B.D.rhsTestOperand c p.1⟩ : LTerm V)) W
      = 0 := by
    intro c n
    unfold evalLin
    rw [List.map_map]
    refine List.sum_eq_zero fun x hx => ?_
    obtain ⟨p, -, rfl⟩ := List.mem_map.1 hx
    simp [LTerm.eval, SOp.eval]
  rw [sum_eq_zero fun n _ => z _ n]
  simp [LTerm.eval, SOp.eval, at_, Operand.eval]

namespace Example
open Polynomial

noncomputable def args (wp : Bool) : Args ℝ[X] where
  otime := ⟨1, 0⟩
  ospace := ⟨1, 1⟩
  N := 4
  T := 2
  stabs := ⟨1, 1, 1, 1⟩
  sol t := C t
  dsol _ := 1
  parameters := ⟨false, wp⟩

theorem args_supported (wp : Bool) : (args wp).Supported := by simp [Args.Supported, args]

example : ∃ B om', construct LinearMap.id (args true) ⟨1, false⟩ = (.ok B, om') ∧ B.D.dt = 1 / 2 ∧ B.D.lam = 5 ∧
    B.D.eps = 1e-15 ∧ B.D.wellPosed = true ∧ B.D.N = 4 := by
  obtain ⟨B, om', h, h1, h2, h3, -, -, h4, -, -, h5, -⟩ := C36_derived (interp := LinearMap.id) (a := args true)
    (om := ⟨1, false⟩) (by simp [args]) (args_supported true)
  refine ⟨B, om', h, ?_, ?_, h3.2 rfl, h4, ?_⟩
  · rw [h1]; norm_num [args]
  · rw [h2]; norm_num [args]
  · have := h5 (by simp [args]); simp [args] at this; omega

example (om : DataDomain ℝ[X]) : (construct LinearMap.id { args true with N := 0 } om).1 = .error .zeroDivision :=
  C36_zero_division.2 rfl
example (om : DataDomain ℝ[X]) : (construct LinearMap.id { args true with otime := ⟨4, 1⟩ } om).1 = .error .keyError :=
  C36_key_error.2 ⟨by simp [args], by simp [Args.Supported]⟩
example (om : DataDomain ℝ[X]) : (construct LinearMap.id { args true with otime := ⟨1, -1⟩ } om).1 = .error .keyError :=
  C36_key_error.2 ⟨by simp [args], by simp [Args.Supported]⟩

theorem construct_ok (wp : Bool) (om : DataDomain ℝ[X]) :
    ∃ B om', construct LinearMap.id (args wp) om = (.ok B, om') := by
  obtain ⟨B, om', h, -⟩ := C36_derived (interp := LinearMap.id) (a := args wp) (om := om) (by simp [args])
    (args_supported wp)
  exact ⟨B, om', h⟩

example : ∃ B om', construct LinearMap.id (args true) ⟨X, false⟩ = (.ok B, om') ∧ B.D.ind = X := by
  obtain ⟨B, om', h⟩ := construct_ok true ⟨X, false⟩
  exact ⟨B, om', h, (C35_unfitted_partial rfl h).1⟩

example : ∃ B om', construct LinearMap.id (args false) ⟨X, true⟩ = (.ok B, om') ∧
    ∀ (pts ws : List ℝ) (u v : ℝ[X]) (W : Field ℝ[X]), evalLin polySpace B.D.ind (B.D.rhsForm polySpace pts ws u v) W
      = 1e-20 * polySpace.mass polySpace.one (W 2 0) := by
  obtain ⟨B, om', h⟩ := construct_ok false ⟨X, true⟩
  exact ⟨B, om', h, C35_no_data_in_rhs rfl rfl h polySpace⟩

/-- C35 is false. -/
theorem C35_violated : ¬ C35_statement ℝ[X] := by
  intro hst
  obtain ⟨B, om', h⟩ := construct_ok true ⟨1, true⟩
  obtain ⟨b, -, e⟩ := construct_run (interp := LinearMap.id) (a := args true) (om := ⟨1, true⟩) (by simp [args])
    (args_supported true)
  have hB : B = builtOf LinearMap.id (args true) ⟨1, true⟩ b := by
    rw [e] at h; exact (Except.ok.inj (Prod.ext_iff.1 h).1).symm
  let U : Field ℝ[X] := fun c i => if c = 0 ∧ i = 0 then 1 else 0
  have h1 := (hst _ _ _ B om' h polySpace).1 Counters.init U U
  rw [(C35_no_data_term rfl h polySpace Counters.init U U).1, Disc.stData, evalForm_loop2] at h1
  have hm : 0 < polySpace.mass 1 1 := polySpace_mass_pos one_ne_zero
  have ho : polySpace.omega 1 1 1 = polySpace.mass 1 1 := by simp [polySpace]
  have hE : (elmatOf 1 0).M_q_q 0 0 = 1 / 3 := by decide +kernel
  simp [hB, builtOf, args, evalForm_cons, Term.eval, SOp.eval, at_, Operand.eval, U, Counters.init, sum_range_succ, hE,
    ho, DataDomain.expected] at h1
  exact hm.ne' h1

end Example
end Dxss
