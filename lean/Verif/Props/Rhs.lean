import Verif.Spec.Load
import Verif.Props.Quadrature
import Verif.Props.Requests
import Verif.Props.Solvable
import Verif.Props.Construct
import Verif.Example.ModeSpace

/-!
# Properties C63–C65: the right-hand side and consistency of the method
-/

namespace Dxss
open Finset
set_option linter.unusedSectionVars false
variable {V : Type} [AddCommGroup V] [Module ℝ V]

/-! ## C63 -/

/-- `C` is the configuration of the object the constructor built. -/
structure Cfg.OfBuilt (C : Cfg V) (B : Built V) : Prop where
  D : C.D = B.D
  pts : B.qr.currentPts 0 1 = .ok (some C.pts)
  ws : B.qr.tWeights 1 = .ok (some C.ws)
  ptsHo : B.qrHo.currentPts 0 1 = .ok (some C.ptsHo)
  wsHo : B.qrHo.tWeights 1 = .ok (some C.wsHo)
  T : C.T = B.T
  dsol : C.dsol = B.dsol
  samples : C.samples = B.samples

/-- The value a quadrature rule assigns to the integral of `f` over slab `n`. -/
def RuleOnSlab (r : QuadRule) (dt : ℝ) (n : ℕ) (Q : (ℝ → ℝ) → ℝ) : Prop :=
  ∃ pts ws, r.currentPts (n * dt) ((n + 1 : ℕ) * dt) = .ok (some pts) ∧
    r.tWeights ((n + 1 : ℕ) * dt - n * dt) = .ok (some ws) ∧ ∀ f, Q f = quadSum pts ws f

theorem rhsTestOperand_eval (D : Disc V) (n : ℕ) (tau : ℝ) (hdt : D.dt ≠ 0) (W : Field V) :
    (D.rhsTestOperand (ctr D.q D.qstar n) tau).eval W = Spec.val D.q D.dt n (W 0) (n * D.dt + D.dt * tau) := by
  have e : ((n * D.dt + D.dt * tau) - n * D.dt) / D.dt = tau := by field_simp; ring
  unfold Spec.val Disc.rhsTestOperand Operand.eval
  rw [List.map_map, sum_map_range, e]
  exact sum_congr rfl fun k _ => by simp [ctr]

theorem evalLin_rhsBody (S : Space V) (D : Disc V) (hdt : D.dt ≠ 0) (ind u10 u20 : V) (pts ws : List ℝ) (n : ℕ)
    (W : Field V) :
    evalLin S ind (D.rhsBody pts ws u10 u20 (ctr D.q D.qstar n) n) W
      = D.gData * (D.dt * quadSum pts ws (fun tau =>
          S.omega ind (D.sol (n * D.dt + D.dt * tau)) (Spec.val D.q D.dt n (W 0) (n * D.dt + D.dt * tau))))
        + if n = 0 ∧ D.wellPosed then D.gJump * Spec.jumpForm S D.dt u10 u20 (W 0 0) (W 1 0) else 0 := by
  rw [Disc.rhsBody, evalLin_append]
  congr 1
  · unfold quadSum
    induction pts generalizing ws with
    | nil => simp
    | cons p ps ih =>
      cases ws with
      | nil => simp
      | cons w ws =>
        simp only [List.zip_cons_cons, List.map_cons, List.sum_cons, List.zipWith_cons_cons, evalLin_cons, ih ws]
        simp only [LTerm.eval, SOp.eval, rhsTestOperand_eval D n p hdt]
        ring
  · by_cases h : n = 0 ∧ D.wellPosed
    · rw [if_pos h, if_pos (by simpa using h)]
      simp only [evalLin_cons, evalLin_nil, LTerm.eval, SOp.eval, eval_at, Spec.jumpForm]
      ring
    · rw [if_neg h, if_neg (by simpa using h)]; rfl

theorem quadSum_slab {r : QuadRule} (hr : mkQuadRule "Gauss-Radau" 4 = .ok r) {pts ws : List ℝ}
    (hp : r.currentPts 0 1 = .ok (some pts)) (hw : r.tWeights 1 = .ok (some ws)) {dt : ℝ} {n : ℕ}
    {Q : (ℝ → ℝ) → ℝ} (hQ : RuleOnSlab r dt n Q) (f : ℝ → ℝ) :
    dt * quadSum pts ws (fun tau => f (n * dt + dt * tau)) = Q f := by
  obtain ⟨p, w, h1, h2, h3⟩ := hQ
  obtain rfl := (Except.ok.inj hr).symm
  rw [h3]
  simp only [QuadRule.currentPts, QuadRule.tWeights, true_or, if_true, Except.ok.injEq,
    Option.some.injEq] at hp hw h1 h2
  subst hp hw h1 h2
  generalize ([-1, -0.575319, 0.181066, 0.822824] : List ℝ) = P
  generalize ([0.125, 0.657689, 0.776387, 0.440924] : List ℝ) = K
  unfold quadSum
  induction P generalizing K with
  | nil => simp
  | cons p P ih =>
    cases K with
    | nil => simp
    | cons k K =>
      have e := ih K
      simp only [List.map_cons, List.zipWith_cons_cons, List.sum_cons] at e ⊢
      rw [← e, mul_add]
      congr 1
      have : (0.5 * ((n + 1 : ℕ) * dt - n * dt) * p + 0.5 * ((n + 1 : ℕ) * dt + n * dt) : ℝ)
          = n * dt + dt * (0.5 * (1 - 0) * p + 0.5 * (1 + 0)) := by push_cast; ring
      rw [this]
      push_cast
      ring

/-- The linear form built by `setup_rhs`, for every test function: the data functional with the rule of
the constructor applied on every slab, plus the `1e-20` placeholder. -/
theorem C63_rhs_form (S : Space V) (D : Disc V) (h : D.Ok) (ind u10 u20 : V) {r : QuadRule}
    (hr : mkQuadRule "Gauss-Radau" 4 = .ok r) {pts ws : List ℝ} (hp : r.currentPts 0 1 = .ok (some pts))
    (hw : r.tWeights 1 = .ok (some ws)) {Q : ℕ → (ℝ → ℝ) → ℝ} (hQ : ∀ n < D.N, RuleOnSlab r D.dt n (Q n))
    (W : Field V) :
    evalLin S ind (D.rhsForm S pts ws u10 u20) W
      = Spec.load S D ind u10 u20 Q W + 1e-20 * S.mass S.one (W 2 0) := by
  rw [Disc.rhsForm, evalLin_cons, evalLin_slabLoop, add_comm]
  congr 1
  · rw [sum_congr rfl fun n hn => by
      rw [evalLin_rhsBody S D h.dt_ne, quadSum_slab hr hp hw (hQ n (mem_range.1 hn))
        (fun t => S.omega ind (D.sol t) (Spec.val D.q D.dt n (W 0) t))], sum_add_distrib, Spec.load]
    congr 1
    have v0 : ∀ c, Spec.val D.q D.dt 0 (W c) 0 = W c 0 := fun c => by
      have := val_bottom h.hq D.dt 0 (W c)
      simpa using this
    rw [v0, v0]
    by_cases hwp : D.wellPosed = true
    · by_cases hN : 0 < D.N
      · rw [if_pos ⟨hwp, hN⟩, sum_eq_single_of_mem 0 (mem_range.2 hN), if_pos ⟨rfl, hwp⟩]
        intro b _ hb; rw [if_neg fun hc => hb hc.1]
      · rw [if_neg fun hc => hN hc.2]
        simp [Nat.eq_zero_of_not_pos hN]
    · rw [if_neg fun hc => hwp hc.1]
      exact sum_eq_zero fun n _ => if_neg fun hc => hwp hc.2
  · simp [LTerm.eval, SOp.eval]

theorem assembleVec_pair (S : Space V) (ind : V) (fe : FE V) (L : FSpace) (hL : L.Ok fe.m) (F : List (LTerm V))
    (y : Vec) :
    ∑ d ∈ range L.size, assembleVec S ind fe L F d * y d = evalLin S ind F (L.field fe y) := by
  rw [field_eq_sum L fe hL y, evalLin_sum]
  refine sum_congr rfl fun d hd => ?_
  rw [assembleVec, if_pos (mem_range.1 hd), evalLin_smul, mul_comm]

theorem construct_qr {interp : V →ₗ[ℝ] V} {a : Args V} {om om' : DataDomain V} {B : Built V}
    (hb : construct interp a om = (.ok B, om')) :
    mkQuadRule "Gauss-Radau" 4 = .ok B.qr ∧ (a.T ≠ 0 → B.D.Ok) := by
  have hN : a.N ≠ 0 := fun hN => by rw [Prod.ext_iff, C36_zero_division.2 hN] at hb; cases hb.1
  have hs : a.Supported := by
    by_contra hs; rw [Prod.ext_iff, C36_key_error.2 ⟨hN, hs⟩] at hb; cases hb.1
  obtain ⟨B', om'', e, -, -, -, -, -, -, -, -, -, h1, -, -, -, h2, -⟩ :=
    C36_derived (interp := interp) (om := om) hN hs
  rw [e] at hb
  obtain rfl := Except.ok.inj (Prod.ext_iff.1 hb).1
  exact ⟨h2, h1⟩

/-- C63: for an object built by the constructor, the vector `get_spacetime_rhs()` returns, applied to any
vector, is the data functional with the constructor's rule on every slab, plus the placeholder. -/
theorem C63_rhs_vector {interp : V →ₗ[ℝ] V} {a : Args V} {om om' : DataDomain V} {B : Built V}
    (hb : construct interp a om = (.ok B, om')) {C : Cfg V} (hC : C.Ok) (hB : C.OfBuilt B)
    {w₀ : World V} (h₀ : w₀.Fresh) (hf : w₀.NoFail) (u v : V) (ops : List (Op V))
    (hops : ∀ op ∈ ops, ¬ op.WritesInitial) {r : Ref} {w₁ : World V}
    (h : getSpacetimeRhs C (runOps C (.setupFE :: .setInitial u v :: ops) w₀) = (.ok r, w₁))
    {Q : ℕ → (ℝ → ℝ) → ℝ} (hQ : ∀ n < C.D.N, RuleOnSlab B.qr C.D.dt n (Q n)) (y : Vec) :
    ∑ d ∈ range C.full.size, w₁.heap r d * y d
      = Spec.load C.S C.D C.D.ind u v Q (C.full.field C.fe y)
        + 1e-20 * C.S.mass C.S.one (C.full.field C.fe y 2 0) := by
  obtain ⟨hr, hok⟩ := construct_qr hb
  rw [C33_initial_data_partial h₀ hf u v ops hops h, rhsVecOf, assembleVec_pair _ _ _ _ hC.full,
    C63_rhs_form C.S C.D hC.disc C.D.ind u v hr hB.pts hB.ws hQ]

/-- Such approximations exist: the rule of the constructor accepts every interval. -/
theorem exists_ruleOnSlab {r : QuadRule} (hr : mkQuadRule "Gauss-Radau" 4 = .ok r) (dt : ℝ) (n : ℕ) :
    ∃ Q, RuleOnSlab r dt n Q := by
  obtain rfl := (Except.ok.inj hr).symm
  exact ⟨_, _, _, rfl, rfl, fun f => rfl⟩

/-! ## C64 -/

theorem slab_subset {D : Disc V} (hdt : 0 < D.dt) {n : ℕ} (hn : n < D.N) {t : ℝ}
    (ht : t ∈ Set.uIcc (n * D.dt) ((n + 1 : ℕ) * D.dt)) : t ∈ Set.Icc 0 (D.N * D.dt) := by
  rw [Set.uIcc_of_le (mul_le_mul_of_nonneg_right (by push_cast; linarith) hdt.le)] at ht
  have : ((n + 1 : ℕ) : ℝ) ≤ D.N := by exact_mod_cast hn
  exact ⟨le_trans (by positivity) ht.1, ht.2.trans (mul_le_mul_of_nonneg_right this hdt.le)⟩

/-- The dual finite element functions. -/
def FE.dual (fe : FE V) : Submodule ℝ V := Submodule.span ℝ (fe.bD '' Set.Iio fe.mD)

theorem field_mem_dual (L : FSpace) (fe : FE V) (x : Vec) (i : ℤ) : L.field fe x 2 i ∈ fe.dual := by
  unfold FSpace.field
  split
  · exact Submodule.sum_mem _ fun s hs => Submodule.smul_mem _ _
      (Submodule.subset_span ⟨s, mem_range.1 hs, rfl⟩)
  · exact Submodule.zero_mem _

theorem val_mem {Y : Submodule ℝ V} {F : ℤ → V} (h : ∀ i, F i ∈ Y) (q : ℕ) (dt : ℝ) (n : ℕ) (t : ℝ) :
    Spec.val q dt n F t ∈ Y :=
  Submodule.sum_mem _ fun _ _ => Submodule.smul_mem _ _ (h _)

/-- For a solution of the wave equation the space-time form reduces to the data term and the initial
term: the method is consistent. -/
theorem pathForm_solution (S : Space V) (D : Disc V) (hdt : 0 < D.dt) (ind : V) {u : Spec.Path V}
    {Y : Submodule ℝ V} (hu : Spec.WaveSolution S Y u (Set.Icc 0 (D.N * D.dt))) (W : Field V) (hW : ∀ i, W 2 i ∈ Y) :
    Spec.pathForm S D ind u W
      = ∑ n ∈ range D.N, D.gData * Spec.slabInt D.dt n (fun t => S.omega ind (u.u1 t) (Spec.val D.q D.dt n (W 0) t))
        + if D.wellPosed ∧ 0 < D.N then
            D.gJump * Spec.jumpForm S D.dt (u.u1 0) (u.u2 0) (Spec.val D.q D.dt 0 (W 0) 0) (Spec.val D.q D.dt 0 (W 1) 0)
          else 0 := by
  rw [Spec.pathForm]
  congr 1
  refine sum_congr rfl fun n hn => ?_
  rw [Spec.slabInt, Spec.slabInt, ← intervalIntegral.integral_const_mul]
  refine intervalIntegral.integral_congr fun t ht => ?_
  have ht := slab_subset hdt (mem_range.1 hn) ht
  have hw : ∀ y2, Spec.wave S (u.u1 t) (u.u2 t) (u.du1 t) (u.du2 t) (Spec.val D.qstar D.dt n (W 2) t) y2 = 0 := fun y2 => by
    rw [Spec.wave, hu.weak t ht _ (val_mem hW _ _ _ _), hu.vel t ht]; simp
  simp only [hw]
  simp only [Spec.primalStab, hu.dirichlet t ht, hu.smooth t ht, hu.strong t ht, hu.vel t ht, sub_self, map_zero,
    LinearMap.zero_apply]
  ring

/-- C64: consistency.  If the measured data and the initial data come from a solution of the wave
equation, right-hand side and form differ at that solution only by the quadrature error of the data
term and the placeholder. -/
theorem C64_consistency (S : Space V) (D : Disc V) (h : D.Ok) (hdt : 0 < D.dt) (ind : V) {u : Spec.Path V}
    {Y : Submodule ℝ V} (hu : Spec.WaveSolution S Y u (Set.Icc 0 (D.N * D.dt))) (hdata : ∀ t, D.sol t = u.u1 t) {r : QuadRule}
    (hr : mkQuadRule "Gauss-Radau" 4 = .ok r) {pts ws : List ℝ} (hp : r.currentPts 0 1 = .ok (some pts))
    (hw : r.tWeights 1 = .ok (some ws)) {Q : ℕ → (ℝ → ℝ) → ℝ} (hQ : ∀ n < D.N, RuleOnSlab r D.dt n (Q n))
    (W : Field V) (hW : ∀ i, W 2 i ∈ Y) :
    evalLin S ind (D.rhsForm S pts ws (u.u1 0) (u.u2 0)) W
      = Spec.pathForm S D ind u W + 1e-20 * S.mass S.one (W 2 0)
        + ∑ n ∈ range D.N, D.gData *
            (Q n (fun t => S.omega ind (u.u1 t) (Spec.val D.q D.dt n (W 0) t))
              - Spec.slabInt D.dt n (fun t => S.omega ind (u.u1 t) (Spec.val D.q D.dt n (W 0) t))) := by
  rw [C63_rhs_form S D h ind _ _ hr hp hw hQ, pathForm_solution S D hdt ind hu W hW, Spec.load]
  simp only [hdata, mul_sub, sum_sub_distrib]
  ring

theorem quadSum_sub (pts ws : List ℝ) (f g : ℝ → ℝ) :
    quadSum pts ws (fun x => f x - g x) = quadSum pts ws f - quadSum pts ws g := by
  unfold quadSum
  induction pts generalizing ws with
  | nil => simp
  | cons p ps ih =>
    cases ws with
    | nil => simp
    | cons w ws => simp only [List.zipWith_cons_cons, List.sum_cons, ih ws]; ring

theorem quadSum_abs_le {pts ws : List ℝ} {a b δ : ℝ} (h : RuleOK pts ws a b) {f : ℝ → ℝ}
    (hf : ∀ x, a ≤ x → x ≤ b → |f x| ≤ δ) : |quadSum pts ws f| ≤ (b - a) * δ := by
  rw [← h.sum_eq]
  have h1 := h.length_eq; have h2 := h.inside; have h3 := h.pos
  clear h
  unfold quadSum
  induction pts generalizing ws with
  | nil => cases ws with
    | nil => simp
    | cons w ws => simp at h1
  | cons p ps ih =>
    cases ws with
    | nil => simp at h1
    | cons w ws =>
      simp only [List.zipWith_cons_cons, List.sum_cons, add_mul]
      refine (abs_add_le _ _).trans (add_le_add ?_ (ih (by simpa using h1) (fun q hq => h2 q (by simp [hq]))
        (fun q hq => h3 q (by simp [hq]))))
      rw [abs_mul, abs_of_pos (h3 w (by simp))]
      have := h2 p (by simp)
      exact mul_le_mul_of_nonneg_left (hf p this.1 this.2) (h3 w (by simp)).le

/-- C64: size of the quadrature error on a slab for an integrand that is within `δ` of a polynomial of
degree at most 6 in the slab-local time. -/
theorem C64_quadrature_error {r : QuadRule} (hr : mkQuadRule "Gauss-Radau" 4 = .ok r) {dt δ : ℝ} (hdt : 0 < dt) {n : ℕ}
    {Q : (ℝ → ℝ) → ℝ} (hQ : RuleOnSlab r dt n Q) {f : ℝ → ℝ} (hf : Continuous f) (p : Polynomial ℝ)
    (hp : p.natDegree ≤ 6)
    (hfp : ∀ t, n * dt ≤ t → t ≤ (n + 1 : ℕ) * dt → |f t - p.eval ((t - n * dt) / dt)| ≤ δ) :
    |Q f - Spec.slabInt dt n f| ≤ dt * (2 * δ + 1e-6 * ∑ k ∈ range 7, |p.coeff k|) := by
  have hlt : (n : ℝ) * dt < (n + 1 : ℕ) * dt := mul_lt_mul_of_pos_right (by push_cast; linarith) hdt
  have hlen : ((n + 1 : ℕ) : ℝ) * dt - n * dt = dt := by push_cast; ring
  obtain ⟨pts, ws, h1, h2, h3⟩ := hQ
  obtain ⟨r', pts', ws', e1, e2, e3, hok⟩ := C07_accepts "Gauss-Radau" 4 (Or.inl ⟨rfl, Or.inr (Or.inl rfl)⟩) hlt
  obtain ⟨r'', pts'', ws'', g1, g2, g3, hbd⟩ := C09_radau4_error p hp hlt
  have x1 : r' = r := Except.ok.inj (e1.symm.trans hr)
  have x2 : r'' = r := Except.ok.inj (g1.symm.trans hr)
  subst x1
  subst x2
  obtain rfl : pts' = pts := Option.some.inj (Except.ok.inj (e2.symm.trans h1))
  obtain rfl : ws' = ws := Option.some.inj (Except.ok.inj (e3.symm.trans h2))
  obtain rfl : pts'' = pts' := Option.some.inj (Except.ok.inj (g2.symm.trans h1))
  obtain rfl : ws'' = ws' := Option.some.inj (Except.ok.inj (g3.symm.trans h2))
  simp only [hlen] at hbd
  have hcp : Continuous fun t : ℝ => p.eval ((t - n * dt) / dt) :=
    p.continuous.comp (continuous_local dt n)
  have b1 : |Q f - quadSum pts'' ws'' (fun t => p.eval ((t - n * dt) / dt))| ≤ dt * δ := by
    rw [h3, ← quadSum_sub]
    have := quadSum_abs_le hok (f := fun t => f t - p.eval ((t - n * dt) / dt)) (δ := δ)
      (fun t h h' => hfp t h h')
    rwa [hlen] at this
  have b2 : |(∫ t in (n * dt)..((n + 1 : ℕ) * dt), p.eval ((t - n * dt) / dt)) - Spec.slabInt dt n f| ≤ dt * δ := by
    rw [Spec.slabInt, ← int_sub hcp hf]
    have := intervalIntegral.norm_integral_le_of_norm_le_const (a := n * dt) (b := (n + 1 : ℕ) * dt) (C := δ)
      (f := fun t => p.eval ((t - n * dt) / dt) - f t) (fun t ht => by
        rw [Set.uIoc_of_le hlt.le] at ht
        rw [Real.norm_eq_abs, abs_sub_comm]; exact hfp t ht.1.le ht.2)
    rw [hlen, abs_of_pos hdt] at this
    rw [mul_comm dt δ]
    exact this
  calc |Q f - Spec.slabInt dt n f|
      = |(Q f - quadSum pts'' ws'' (fun t => p.eval ((t - n * dt) / dt)))
        + (quadSum pts'' ws'' (fun t => p.eval ((t - n * dt) / dt))
          - ∫ t in (n * dt)..((n + 1 : ℕ) * dt), p.eval ((t - n * dt) / dt))
        + ((∫ t in (n * dt)..((n + 1 : ℕ) * dt), p.eval ((t - n * dt) / dt)) - Spec.slabInt dt n f)| := by
        congr 1; ring
    _ ≤ dt * δ + dt * (1e-6 * ∑ k ∈ range 7, |p.coeff k|) + dt * δ :=
        (abs_add_le _ _).trans (add_le_add ((abs_add_le _ _).trans (add_le_add b1 hbd)) b2)
    _ = _ := by ring

/-! ## C65 -/

/-- C65: error identity of a direct solve.  Let `x` solve the assembled system and let `xs` be any other
coefficient vector (such as an interpolant of the solution).  The energy of the difference is the
consistency error of `xs`, plus the quadrature error of the data term, plus the placeholder. -/
theorem C65_error_identity {interp : V →ₗ[ℝ] V} {a : Args V} {om om' : DataDomain V} {B : Built V}
    (hb : construct interp a om = (.ok B, om')) {C : Cfg V} (hC : C.Ok) (hB : C.OfBuilt B) (hdt : 0 < C.D.dt)
    {u : Spec.Path V} (hu : Spec.WaveSolution C.S C.fe.dual u (Set.Icc 0 (C.D.N * C.D.dt)))
    (hdata : ∀ t, C.D.sol t = u.u1 t)
    {w₀ : World V} (h₀ : w₀.Fresh) (hf : w₀.NoFail) (ops ops' : List (Op V))
    (hops : ∀ op ∈ ops, ¬ op.WritesInitial) {r : Ref} {w₁ : World V}
    (hrhs : getSpacetimeRhs C (runOps C (.setupFE :: .setInitial (u.u1 0) (u.u2 0) :: ops) w₀) = (.ok r, w₁))
    {v₀ : World V} (g₀ : v₀.Fresh) (hops' : ∀ op ∈ ops', ¬ op.OtherFlag false) {A : Mat} {v₁ : World V}
    (hmat : getSpacetimeMatrix C false (runOps C ops' v₀) = (.ok A, v₁))
    {Q : ℕ → (ℝ → ℝ) → ℝ} (hQ : ∀ n < C.D.N, RuleOnSlab B.qr C.D.dt n (Q n))
    (x xs : Vec) (hx : ∀ d < C.full.size, A.mult x d = w₁.heap r d) :
    let X := C.full.field C.fe x
    let Xs := C.full.field C.fe xs
    let W := Spec.flipDual (X - Xs)
    Spec.energy C.S C.D C.D.ind (X - Xs)
      = Spec.pathForm C.S C.D C.D.ind u W - Spec.form C.S C.D C.D.ind false Xs W
        + ∑ n ∈ range C.D.N, C.D.gData *
            (Q n (fun t => C.S.omega C.D.ind (u.u1 t) (Spec.val C.D.q C.D.dt n (W 0) t))
              - Spec.slabInt C.D.dt n (fun t => C.S.omega C.D.ind (u.u1 t) (Spec.val C.D.q C.D.dt n (W 0) t)))
        + 1e-20 * C.S.mass (C.S.one - X 0 0) (W 2 0) := by
  intro X Xs W
  obtain ⟨hr, -⟩ := construct_qr hb
  have hsub : X - Xs = C.full.field C.fe (x - xs) := by
    have := (fieldLin C.full C.fe).map_sub x xs
    exact this.symm
  obtain ⟨y, hy⟩ := exists_flip hC.full (fe := C.fe) (x - xs)
  have hW : W = C.full.field C.fe y := by rw [hy, ← hsub]
  have e1 : evalForm C.S C.D.ind (C.D.stForm false) X W
      = evalLin C.S C.D.ind (C.D.rhsForm C.S C.pts C.ws (u.u1 0) (u.u2 0)) W := by
    rw [hW, ← assemble_pair C.S C.D.ind (C.D.stForm false) C.fe C.full hC.full x y,
      ← assembleVec_pair C.S C.D.ind C.fe C.full hC.full]
    refine sum_congr rfl fun d hd => ?_
    have hA := (C32_same_flag_partial g₀ false ops' hops').1 A v₁ hmat
    rw [hA, C33_initial_data_partial h₀ hf _ _ ops hops hrhs] at hx
    rw [← rhsVecOf, ← hx d (mem_range.1 hd)]; rfl
  have e2 := C14_stability_identity C.S C.D hC.disc C.D.ind (X - Xs)
  have e3 : evalForm C.S C.D.ind (C.D.stForm false) (X - Xs) W
      = evalForm C.S C.D.ind (C.D.stForm false) X W - evalForm C.S C.D.ind (C.D.stForm false) Xs W := by
    have := (formBilin C.S C.D.ind (C.D.stForm false)).map_sub X Xs
    exact congrArg (fun f => f W) this
  have e4 := C64_consistency C.S C.D hC.disc hdt C.D.ind hu hdata hr hB.pts hB.ws hQ W
    (fun i => by rw [hW]; exact field_mem_dual _ _ _ _)
  have e5 := C12_form_is_variational C.S C.D hC.disc C.D.ind false Xs W
  have e6 : W 2 0 = -(X - Xs) 2 0 := by simp [W, Spec.flipDual]
  have e7 : C.S.mass ((X - Xs) 0 0) (W 2 0) = - C.S.mass ((X - Xs) 0 0) ((X - Xs) 2 0) := by rw [e6, map_neg]
  have e8 : C.S.mass ((X - Xs) 0 0) (W 2 0) = C.S.mass (X 0 0) (W 2 0) - C.S.mass (Xs 0 0) (W 2 0) := by
    rw [Pi.sub_apply, Pi.sub_apply, map_sub, LinearMap.sub_apply]
  have e9 : C.S.mass (C.S.one - X 0 0) (W 2 0) = C.S.mass C.S.one (W 2 0) - C.S.mass (X 0 0) (W 2 0) := by
    rw [map_sub, LinearMap.sub_apply]
  rw [placeholder] at e5
  rw [e9]
  change evalForm C.S C.D.ind (C.D.stForm false) (X - Xs) W = _ at e2
  linarith

/-! ## Example: the solution of the 1D script on two slabs -/

namespace Example

noncomputable def args3 : Args V3 where
  otime := ⟨1, 1⟩
  ospace := ⟨1, 1⟩
  N := 2
  T := 1
  stabs := ⟨1e4, 1, 1e-3, 1⟩
  sol := wave3.u1
  dsol := wave3.du1
  parameters := ⟨false, true⟩

theorem args3_supported : args3.Supported := by simp [Args.Supported, args3]

/-- Linear elements: `1 - x` and `x` for the primal, constants for the dual variable. -/
noncomputable def fe3 : FE V3 where
  mP := 2
  bP s := if s = 0 then (1, -1, 0) else (0, 1, 0)
  mD := 1
  bD _ := (1, 0, 0)

theorem fe3_indep : fe3.Indep := by
  intro c a h s hs
  fin_cases c
  · simp [FE.m, FE.basis, fe3, sum_range_succ] at h hs
    obtain ⟨h0, h1⟩ := h
    interval_cases s
    · exact h0
    · linarith
  · simp [FE.m, FE.basis, fe3, sum_range_succ] at h hs
    obtain ⟨h0, h1⟩ := h
    interval_cases s
    · exact h0
    · linarith
  · simp [FE.m, FE.basis, fe3] at h hs
    rw [hs]; exact h
  · simp [FE.m, FE.basis, fe3] at h hs
    rw [hs]; exact h

noncomputable def cfg3 (B : Built V3) : Cfg V3 where
  S := modeSpace
  D := B.D
  fe := fe3
  full := stdSpace (fullSizes 1 1 2) fe3.m
  slab := stdSpace (slabSizes 1 1) fe3.m
  coup := stdSpace couplingSizes fe3.m
  bnd := stdSpace bndSizes fe3.m
  pts := [-1, -0.575319, 0.181066, 0.822824].map fun pt : ℝ => 0.5 * (1 - 0) * pt + 0.5 * (1 + 0)
  ws := [0.125, 0.657689, 0.776387, 0.440924].map fun w : ℝ => 0.5 * 1 * w
  T := B.T
  dsol := B.dsol
  ptsHo := [-1, -0.72048, -0.167181, 0.446314, 0.885792].map fun pt : ℝ => 0.5 * (1 - 0) * pt + 0.5 * (1 + 0)
  wsHo := [0.08, 0.446208, 0.623653, 0.562712, 0.287427].map fun w : ℝ => 0.5 * 1 * w
  samples := B.samples

/-- The constructor builds an object for which `cfg3` is the configuration. -/
theorem built3 : ∃ B, construct LinearMap.id args3 ⟨(1, 0, 0), false⟩ = (.ok B, ⟨(1, 0, 0), false⟩) ∧
    (cfg3 B).Ok ∧ (cfg3 B).OfBuilt B ∧ B.D.Positive ∧ B.D.ind = (1, 0, 0) ∧ B.D.wellPosed = true ∧
    (∀ t, B.D.sol t = wave3.u1 t) ∧ B.D.N = 2 ∧ B.D.dt = 1 / 2 := by
  obtain ⟨b, -, e⟩ := construct_run (interp := LinearMap.id) (a := args3) (om := ⟨(1, 0, 0), false⟩)
    (by simp [args3]) args3_supported
  have hdt : (builtOf LinearMap.id args3 ⟨(1, 0, 0), false⟩ b).D.dt = 1 / 2 := by simp [builtOf, args3]
  refine ⟨_, e, ?_, ?_, ?_, rfl, rfl, fun t => rfl, rfl, hdt⟩
  · exact ⟨⟨getElmatTime_ok (by simp [cfg3, builtOf, args3]) (by simp [cfg3, builtOf, args3]),
      by change _ ≠ _; rw [cfg3, hdt]; norm_num⟩, stdSpace_ok _ _, rfl,
      stdSpace_ok _ _, rfl, stdSpace_ok _ _, rfl, stdSpace_ok _ _, rfl⟩
  · constructor <;> simp [cfg3, builtOf, QuadRule.currentPts, QuadRule.tWeights, gaussRadau]
  · constructor <;> norm_num [builtOf, args3]

/-- C63 applies to the standing wave of the 1D script. -/
example (heap : Ref → Vec) (Q : ℕ → (ℝ → ℝ) → ℝ) : ∃ B, (cfg3 B).D.gData = 1e4 ∧ ∃ w₁,
    getSpacetimeRhs (cfg3 B) (runOps (cfg3 B) [.setupFE, .setInitial (wave3.u1 0) (wave3.u2 0)] (freshWorld heap))
      = (.ok .rhs, w₁) ∧
    ((∀ n < 2, RuleOnSlab B.qr (1 / 2) n (Q n)) → ∀ y,
      ∑ d ∈ range (cfg3 B).full.size, w₁.heap .rhs d * y d
        = Spec.load modeSpace B.D (1, 0, 0) (wave3.u1 0) (wave3.u2 0) Q ((cfg3 B).full.field fe3 y)
          + 1e-20 * modeSpace.mass modeSpace.one ((cfg3 B).full.field fe3 y 2 0)) := by
  obtain ⟨B, hb, hC, hO, hP, hi, -, hs, hN, hdt⟩ := built3
  obtain ⟨w₁, h⟩ := getRhs_after (cfg3 B) heap (wave3.u1 0) (wave3.u2 0) []
  refine ⟨B, ?_, w₁, h, fun hQ y => ?_⟩
  · obtain ⟨b, -, e⟩ := construct_run (interp := LinearMap.id) (a := args3) (om := ⟨(1, 0, 0), false⟩)
      (by simp [args3]) args3_supported
    rw [e] at hb
    rw [← Except.ok.inj (Prod.ext_iff.1 hb).1]; rfl
  · have := C63_rhs_vector hb hC hO (freshWorld_fresh heap) (freshWorld_noFail heap) _ _ [] (by simp) h
      (Q := Q) (by simpa only [cfg3, hN, hdt] using hQ) y
    rw [show (cfg3 B).D.ind = (1, 0, 0) from hi] at this
    exact this

/-- C64 and C65 apply to the standing wave: the discrete system has a solution, and its distance to any
discrete field obeys the error identity. -/
example (heap : Ref → Vec) : ∃ B w₁ v₁ A x,
    getSpacetimeRhs (cfg3 B) (runOps (cfg3 B) [.setupFE, .setInitial (wave3.u1 0) (wave3.u2 0)] (freshWorld heap))
      = (.ok .rhs, w₁) ∧
    getSpacetimeMatrix (cfg3 B) false (runOps (cfg3 B) [.setupFE] (freshWorld heap)) = (.ok A, v₁) ∧
    (∀ d < (cfg3 B).full.size, A.mult x d = w₁.heap .rhs d) ∧
    ∃ Q : ℕ → (ℝ → ℝ) → ℝ, (∀ n, RuleOnSlab B.qr (1 / 2) n (Q n)) ∧ ∀ xs,
      let X := (cfg3 B).full.field fe3 x
      let Xs := (cfg3 B).full.field fe3 xs
      let W := Spec.flipDual (X - Xs)
      Spec.energy modeSpace B.D (1, 0, 0) (X - Xs)
        = Spec.pathForm modeSpace B.D (1, 0, 0) wave3 W - Spec.form modeSpace B.D (1, 0, 0) false Xs W
          + ∑ n ∈ range B.D.N, B.D.gData *
              (Q n (fun t => modeSpace.omega (1, 0, 0) (wave3.u1 t) (Spec.val B.D.q B.D.dt n (W 0) t))
                - Spec.slabInt B.D.dt n
                    (fun t => modeSpace.omega (1, 0, 0) (wave3.u1 t) (Spec.val B.D.q B.D.dt n (W 0) t)))
          + 1e-20 * modeSpace.mass (modeSpace.one - X 0 0) (W 2 0) := by
  obtain ⟨B, hb, hC, hO, hP, hi, hwp, hs, hN, hdt⟩ := built3
  obtain ⟨w₁, hr⟩ := getRhs_after (cfg3 B) heap (wave3.u1 0) (wave3.u2 0) []
  obtain ⟨v₁, hm⟩ := getMatrix_ok (cfg3 B) false heap
  have hi' : (cfg3 B).D.ind = (1, 0, 0) := hi
  obtain ⟨hsz, hU⟩ := C15_unique_solution hC (by rw [hi']; exact modeSpace_psd) modeSpace_definite hP hwp fe3_indep
    (freshWorld_fresh heap) [.setupFE] (by simp [Op.OtherFlag]) hm
  obtain ⟨x, hx, -⟩ := hU (w₁.heap .rhs)
  rw [hsz] at hx
  choose Q hQ using exists_ruleOnSlab (construct_qr hb).1 (1 / 2)
  refine ⟨B, w₁, v₁, _, x, hr, hm, hx, Q, hQ, fun xs => ?_⟩
  have := C65_error_identity hb hC hO (by change 0 < B.D.dt; rw [hdt]; norm_num) (wave3_solution _ _) hs
    (freshWorld_fresh heap) (freshWorld_noFail heap) [] [.setupFE] (by simp) hr (freshWorld_fresh heap)
    (by simp [Op.OtherFlag]) hm (Q := Q) (fun n _ => by rw [show (cfg3 B).D.dt = 1 / 2 from hdt]; exact hQ n) x xs hx
  rw [hi'] at this
  exact this

/-- The hypotheses of the quadrature estimate are met by `cos` on the first slab of length 1/10. -/
example {r : QuadRule} (hr : mkQuadRule "Gauss-Radau" 4 = .ok r) {Q : (ℝ → ℝ) → ℝ} (hQ : RuleOnSlab r (1 / 10) 0 Q) :
    |Q Real.cos - Spec.slabInt (1 / 10) 0 Real.cos| ≤ 1 / 10 * (2 * (1 / 200) + 1e-6) := by
  have h := C64_quadrature_error hr (by norm_num) hQ Real.continuous_cos 1 (by simp) (δ := 1 / 200) fun t h0 h1 => by
    have h0 : 0 ≤ t := by simpa using h0
    have h1 : t ≤ 1 / 10 := by simpa using h1
    have := Real.one_sub_sq_div_two_le_cos (x := t)
    have := Real.cos_le_one t
    rw [Polynomial.eval_one, abs_le]
    constructor <;> nlinarith
  have e : ∑ k ∈ range 7, |(1 : Polynomial ℝ).coeff k| = 1 := by
    simp [sum_range_succ, Polynomial.coeff_one]
  rw [e] at h
  linarith

end Example

end Dxss
