import Verif.Props.Observe
import Verif.Props.StartTime
import Verif.Lemmas.RadauBound

/-!
# Property C70: stability of the computed solution with respect to data
-/

namespace Dxss
open Finset
set_option linter.unusedSectionVars false
variable {V : Type} [AddCommGroup V] [Module ℝ V]

/-- Size of a perturbation `(δ, δ1, δ2)` of the measured solution and the initial state: the quadrature of the
square over the data domain, and (well-posed case) the energy of the initial perturbation. -/
noncomputable def Spec.dataSize (S : Space V) (D : Disc V) (ind : V) (Q : ℕ → (ℝ → ℝ) → ℝ) (δ : ℝ → V) (δ1 δ2 : V) : ℝ :=
  ∑ n ∈ range D.N, D.gData * Q n (fun t => S.omega ind (δ t) (δ t))
    + if D.wellPosed ∧ 0 < D.N then D.gJump * Spec.jumpForm S D.dt δ1 δ2 δ1 δ2 else 0

theorem bilin_young (B : V →ₗ[ℝ] V →ₗ[ℝ] ℝ) (hB : ∀ v, 0 ≤ B v v) (hsym : ∀ u w, B u w = B w u) (u w : V) :
    2 * B u w ≤ B u u + B w w := by
  have := hB (u - w)
  simp only [map_sub, LinearMap.sub_apply, hsym w u] at this
  linarith

/-- The rule with four points has non-negative weights. -/
theorem ruleOnSlab_mono {r : QuadRule} (hr : mkQuadRule "Gauss-Radau" 4 = .ok r) {dt : ℝ} (hdt : 0 < dt) {n : ℕ}
    {Q : (ℝ → ℝ) → ℝ} (hQ : RuleOnSlab r dt n Q) {f g : ℝ → ℝ} (h : ∀ t, f t ≤ g t) : Q f ≤ Q g := by
  obtain ⟨pts, ws, h1, h2, h3⟩ := hQ
  obtain rfl := (Except.ok.inj hr).symm
  rw [h3, h3]
  simp only [QuadRule.currentPts, QuadRule.tWeights, true_or, if_true, Except.ok.injEq,
    Option.some.injEq] at h1 h2
  subst h1 h2
  have hlen : ((n + 1 : ℕ) : ℝ) * dt - n * dt = dt := by push_cast; ring
  have k : ∀ w : ℝ, 0 ≤ w → 0 ≤ 0.5 * (((n + 1 : ℕ) : ℝ) * dt - n * dt) * w := by
    intro w hw; rw [hlen]; positivity
  simp only [quadSum, List.map_cons, List.map_nil, List.zipWith_cons_cons, List.zipWith_nil_right, List.sum_cons]
  refine add_le_add (mul_le_mul_of_nonneg_left (h _) (k _ (by norm_num))) (add_le_add
    (mul_le_mul_of_nonneg_left (h _) (k _ (by norm_num))) (add_le_add
    (mul_le_mul_of_nonneg_left (h _) (k _ (by norm_num))) (add_le_add
    (mul_le_mul_of_nonneg_left (h _) (k _ (by norm_num))) le_rfl)))

theorem ruleOnSlab_add {r : QuadRule} {dt : ℝ} {n : ℕ} {Q : (ℝ → ℝ) → ℝ} (hQ : RuleOnSlab r dt n Q) (f g : ℝ → ℝ) :
    Q (fun t => f t + g t) = Q f + Q g := by
  obtain ⟨pts, ws, -, -, h3⟩ := hQ
  rw [h3, h3, h3]
  clear h3
  unfold quadSum
  induction pts generalizing ws with
  | nil => simp
  | cons p P ih =>
    cases ws with
    | nil => simp
    | cons k K =>
      simp only [List.zipWith_cons_cons, List.sum_cons]; rw [ih]; ring

theorem ruleOnSlab_mul {r : QuadRule} {dt : ℝ} {n : ℕ} {Q : (ℝ → ℝ) → ℝ} (hQ : RuleOnSlab r dt n Q) (c : ℝ) (f : ℝ → ℝ) :
    Q (fun t => c * f t) = c * Q f := by
  obtain ⟨pts, ws, -, -, h3⟩ := hQ
  rw [h3, h3]
  clear h3
  unfold quadSum
  induction pts generalizing ws with
  | nil => simp
  | cons p P ih =>
    cases ws with
    | nil => simp
    | cons k K =>
      simp only [List.zipWith_cons_cons, List.sum_cons]; rw [ih]; ring

/-- The first dual coefficient is controlled by the energy. -/
theorem dual_bottom_energy {S : Space V} {D : Disc V} (h : D.Ok) {ind : V} (hS : S.Psd ind) (hp : D.Positive) (hN : 0 < D.N)
    (U : Field V) : D.gDual * D.dt * S.mass (U 2 0) (U 2 0) ≤ (D.qstar + 1) ^ 2 * Spec.energy S D ind U := by
  have hw := hp.weights
  have h1 := dual_bottom_le h hS hw (ind := ind) U
  have h2 := first_slab_le hS hw (ind := ind) hN U
  have h3 := eBot_nonneg U hS hw 0
  have hq : (0 : ℝ) < (D.qstar + 1) ^ 2 := by positivity
  have := mul_le_mul_of_nonneg_left (h1.trans ((le_add_of_nonneg_right h3).trans h2)) hq.le
  have e : ((D.qstar : ℝ) + 1) ^ 2 * (D.gDual * (D.dt / (D.qstar + 1) ^ 2 * S.mass (U 2 0) (U 2 0)))
      = D.gDual * D.dt * S.mass (U 2 0) (U 2 0) := by
    field_simp
  rwa [e] at this

/-- The placeholder is a small fraction of the energy. -/
theorem placeholder_small {C : Cfg V} (hC : C.Ok) (hS : C.S.Psd C.D.ind) (hp : C.D.Positive) {K : ℝ}
    (ho : C.Observable K) (hK : K * ((1e-20) ^ 2 * (C.D.qstar + 1) ^ 2) ≤ 1e-2 * (C.D.gDual * C.D.dt)) (hN : 0 < C.D.N)
    (x : Vec) : |1e-20 * C.S.mass (C.full.field C.fe x 0 0) (C.full.field C.fe x 2 0)|
      ≤ 0.1 * Spec.energy C.S C.D C.D.ind (C.full.field C.fe x) := by
  have hw := hp.weights
  have hc := ho.control x
  set U := C.full.field C.fe x
  have hB := dual_bottom_energy hC.disc hS hp (ind := C.D.ind) hN U
  have hcs := mass_cauchy hS (U 0 0) (U 2 0)
  have hE0 : 0 ≤ Spec.energy C.S C.D C.D.ind U := C14_energy_nonneg C.S C.D C.D.ind hS hw U
  have ha := hS.mass (U 0 0); have hb := hS.mass (U 2 0)
  set E := Spec.energy C.S C.D C.D.ind U
  set a := C.S.mass (U 0 0) (U 0 0)
  set b := C.S.mass (U 2 0) (U 2 0)
  set m := C.S.mass (U 0 0) (U 2 0)
  have hq : (0 : ℝ) < (C.D.qstar + 1) ^ 2 := by positivity
  have hg : 0 < C.D.gDual * C.D.dt := mul_pos hp.dual hp.dt
  refine abs_le_of_sq_le_sq ?_ (by positivity)
  have t1 : C.D.gDual * C.D.dt * m ^ 2 ≤ a * (C.D.gDual * C.D.dt * b) := by
    have := mul_le_mul_of_nonneg_left hcs hg.le
    linarith
  have t2 : a * (C.D.gDual * C.D.dt * b) ≤ K * E * ((C.D.qstar + 1) ^ 2 * E) :=
    mul_le_mul hc hB (by positivity) (ha.trans hc)
  have t3 : (1e-20) ^ 2 * (K * E * ((C.D.qstar + 1) ^ 2 * E)) ≤ 1e-2 * (C.D.gDual * C.D.dt) * E ^ 2 := by
    have := mul_le_mul_of_nonneg_right hK (by positivity : 0 ≤ E ^ 2)
    linarith
  have t4 := (mul_le_mul_of_nonneg_left (t1.trans t2) (by positivity : (0:ℝ) ≤ (1e-20) ^ 2)).trans t3
  have t5 : C.D.gDual * C.D.dt * (1e-20 * m) ^ 2 ≤ C.D.gDual * C.D.dt * (0.1 * E) ^ 2 := by nlinarith
  exact le_of_mul_le_mul_left t5 hg

/-- The load of a perturbation against a discrete function is at most half the size of the perturbation plus
(about) half the energy of the function. -/
theorem load_young {S : Space V} {D : Disc V} (h : D.Ok) {ind : V} (hS : S.Psd ind) (hw : D.Weights) {r : QuadRule}
    (hr : mkQuadRule "Gauss-Radau" 4 = .ok r) {Q : ℕ → (ℝ → ℝ) → ℝ} (hQ : ∀ n < D.N, RuleOnSlab r D.dt n (Q n))
    (δ : ℝ → V) (δ1 δ2 : V) (W : Field V) :
    2 * Spec.load S { D with sol := δ } ind δ1 δ2 Q W
      ≤ Spec.dataSize S D ind Q δ δ1 δ2 + 1.01 * Spec.energy S D ind W := by
  have hdt := hw.dt
  have part : ∀ n < D.N, 2 * (D.gData * Q n (fun t => S.omega ind (δ t) (Spec.val D.q D.dt n (W 0) t)))
      ≤ D.gData * Q n (fun t => S.omega ind (δ t) (δ t))
        + 1.01 * ∫ t in (n * D.dt)..((n + 1 : ℕ) * D.dt), eDens S D ind W n t := by
    intro n hn
    have y : Q n (fun t => 2 * S.omega ind (δ t) (Spec.val D.q D.dt n (W 0) t))
        ≤ Q n (fun t => S.omega ind (δ t) (δ t) + S.omega ind (Spec.val D.q D.dt n (W 0) t) (Spec.val D.q D.dt n (W 0) t)) :=
      ruleOnSlab_mono hr hdt (hQ n hn) fun t => bilin_young (S.omega ind) hS.omega (S.omega_symm ind) _ _
    rw [ruleOnSlab_mul (hQ n hn), ruleOnSlab_add (hQ n hn)] at y
    have z := radau_slab hr h.hq hdt (hQ n hn) (S.omega ind) hS.omega (S.omega_symm ind) (W 0)
    have hI : D.gData * (∫ t in (n * D.dt)..((n + 1 : ℕ) * D.dt), S.omega ind (Spec.val D.q D.dt n (W 0) t)
        (Spec.val D.q D.dt n (W 0) t)) ≤ ∫ t in (n * D.dt)..((n + 1 : ℕ) * D.dt), eDens S D ind W n t := by
      rw [← intervalIntegral.integral_const_mul]
      refine intervalIntegral.integral_mono_on (by push_cast; nlinarith)
        ((continuous_const.mul (cont_vv h.hq h.hq _ _ _)).intervalIntegrable _ _)
        ((continuous_eDens S D h ind W n).intervalIntegrable _ _) fun t _ => ?_
      unfold eDens
      have n2 : 0 ≤ D.gDual * dualAt S D n W W t := mul_nonneg hw.dual (dualStab_nonneg hS hw.lam _ _)
      have n3 : 0 ≤ D.gPrimal * primalAt S D n W W t := mul_nonneg hw.primal (primalStab_nonneg hS hw.lam _ _ _ _)
      linarith
    have y' := mul_le_mul_of_nonneg_left y hw.data
    have z' := mul_le_mul_of_nonneg_left z hw.data
    have hI' := mul_le_mul_of_nonneg_left hI (by norm_num : (0:ℝ) ≤ 1.01)
    rw [mul_add] at y'
    rw [mul_left_comm] at z'
    linarith only [y', z', hI']
  have hsum : 2 * ∑ n ∈ range D.N, D.gData * Q n (fun t => S.omega ind (δ t) (Spec.val D.q D.dt n (W 0) t))
      ≤ ∑ n ∈ range D.N, D.gData * Q n (fun t => S.omega ind (δ t) (δ t))
        + 1.01 * ∑ n ∈ range D.N, ∫ t in (n * D.dt)..((n + 1 : ℕ) * D.dt), eDens S D ind W n t := by
    rw [mul_sum, mul_sum, ← sum_add_distrib]
    exact sum_le_sum fun n hn => part n (mem_range.1 hn)
  have hbot0 : ∀ n, 0 ≤ eBot S D W n := eBot_nonneg W hS hw
  have hE : Spec.energy S D ind W = (∑ n ∈ range D.N, ∫ t in (n * D.dt)..((n + 1 : ℕ) * D.dt), eDens S D ind W n t)
      + ∑ n ∈ range D.N, eBot S D W n := by rw [energy_eq, sum_add_distrib]
  have hjump : 2 * (if D.wellPosed ∧ 0 < D.N then
        D.gJump * Spec.jumpForm S D.dt δ1 δ2 (Spec.val D.q D.dt 0 (W 0) 0) (Spec.val D.q D.dt 0 (W 1) 0) else 0)
      ≤ (if D.wellPosed ∧ 0 < D.N then D.gJump * Spec.jumpForm S D.dt δ1 δ2 δ1 δ2 else 0)
        + ∑ n ∈ range D.N, eBot S D W n := by
    split
    · rename_i hwp
      have hle : eBot S D W 0 ≤ ∑ n ∈ range D.N, eBot S D W n :=
        single_le_sum (f := fun n => eBot S D W n) (fun n _ => hbot0 n) (mem_range.2 hwp.2)
      have e0 : eBot S D W 0 = D.gJump * Spec.jumpForm S D.dt (Spec.val D.q D.dt 0 (W 0) 0)
          (Spec.val D.q D.dt 0 (W 1) 0) (Spec.val D.q D.dt 0 (W 0) 0) (Spec.val D.q D.dt 0 (W 1) 0) := by
        simp only [eBot, if_true, hwp.1]
      rw [e0] at hle
      set p := Spec.val D.q D.dt 0 (W 0) 0
      set q := Spec.val D.q D.dt 0 (W 1) 0
      have y1 := bilin_young S.mass hS.mass S.mass_symm δ1 p
      have y2 := bilin_young S.stiff hS.stiff S.stiff_symm δ1 p
      have y3 := bilin_young S.mass hS.mass S.mass_symm δ2 q
      have hi : 0 ≤ 1 / D.dt := by positivity
      have yy : 2 * Spec.jumpForm S D.dt δ1 δ2 p q
          ≤ Spec.jumpForm S D.dt δ1 δ2 δ1 δ2 + Spec.jumpForm S D.dt p q p q := by
        unfold Spec.jumpForm
        have := mul_le_mul_of_nonneg_left y1 hi
        have := mul_le_mul_of_nonneg_left y2 hdt.le
        have := mul_le_mul_of_nonneg_left y3 hi
        linarith
      have := mul_le_mul_of_nonneg_left yy hw.jump
      linarith
    · have := sum_nonneg (s := range D.N) fun n _ => hbot0 n
      linarith
  have hs0 := sum_nonneg (s := range D.N) fun n _ => hbot0 n
  rw [hE, Spec.load, Spec.dataSize]
  simp only
  linarith only [hsum, hjump, hs0]

/-- The load functional is linear in solution and initial data. -/
theorem load_sub {r : QuadRule} (S : Space V) (D : Disc V) (ind : V) {Q : ℕ → (ℝ → ℝ) → ℝ}
    (hQ : ∀ n < D.N, RuleOnSlab r D.dt n (Q n)) (f g : ℝ → V) (a1 a2 b1 b2 : V) (W : Field V) :
    Spec.load S { D with sol := f } ind a1 a2 Q W - Spec.load S { D with sol := g } ind b1 b2 Q W
      = Spec.load S { D with sol := fun t => f t - g t } ind (a1 - b1) (a2 - b2) Q W := by
  have e : ∀ n < D.N, Q n (fun t => S.omega ind (f t - g t) (Spec.val D.q D.dt n (W 0) t))
      = Q n (fun t => S.omega ind (f t) (Spec.val D.q D.dt n (W 0) t))
        - Q n (fun t => S.omega ind (g t) (Spec.val D.q D.dt n (W 0) t)) := by
    intro n hn
    have := ruleOnSlab_add (hQ n hn) (fun t => S.omega ind (f t - g t) (Spec.val D.q D.dt n (W 0) t))
      (fun t => S.omega ind (g t) (Spec.val D.q D.dt n (W 0) t))
    rw [eq_sub_iff_add_eq, ← this]
    congr 1
    funext t
    simp
  simp only [Spec.load]
  have e' : ∑ n ∈ range D.N, D.gData * Q n (fun t => S.omega ind (f t - g t) (Spec.val D.q D.dt n (W 0) t))
      = ∑ n ∈ range D.N, D.gData * Q n (fun t => S.omega ind (f t) (Spec.val D.q D.dt n (W 0) t))
        - ∑ n ∈ range D.N, D.gData * Q n (fun t => S.omega ind (g t) (Spec.val D.q D.dt n (W 0) t)) := by
    rw [← sum_sub_distrib]
    exact sum_congr rfl fun n hn => by rw [e n (mem_range.1 hn), mul_sub]
  rw [e']
  split
  · simp only [Spec.jumpForm, map_sub, LinearMap.sub_apply]; ring
  · ring

/-- The energy does not see the sign of the dual components. -/
theorem energy_flip (S : Space V) (D : Disc V) (ind : V) (U : Field V) :
    Spec.energy S D ind (Spec.flipDual U) = Spec.energy S D ind U := by
  rw [energy_eq, energy_eq]
  refine sum_congr rfl fun n _ => ?_
  simp only [eDens, eBot, dualAt, primalAt, Spec.dualStab, flipDual_0, flipDual_1, flipDual_2, flipDual_3, val_neg,
    map_neg, LinearMap.neg_apply, neg_neg]

/-- C70: let two objects differ in the measured solution only.  If the data observe the states (C68), the
energy of the difference of the two computed solutions is at most twice the size of the difference of their
data, whatever the histories of the two objects. -/
theorem C70_stability {interp : V →ₗ[ℝ] V} {a : Args V} {sol₂ : ℝ → V} {om om' om₂' : DataDomain V} {B B₂ : Built V}
    (hb : construct interp a om = (.ok B, om')) (hb₂ : construct interp { a with sol := sol₂ } om = (.ok B₂, om₂'))
    {C C₂ : Cfg V} (hC : C.Ok) (hB : C.OfBuilt B) (hC₂ : C₂.Ok) (hB₂ : C₂.OfBuilt B₂) (hSS : C₂.S = C.S)
    (hfe : C₂.fe = C.fe) (hL : C₂.full = C.full) (hS : C.S.Psd C.D.ind) (hp : C.D.Positive) (hN : 0 < C.D.N)
    {K : ℝ} (ho : C.Observable K) (hK : K * ((1e-20) ^ 2 * (C.D.qstar + 1) ^ 2) ≤ 1e-2 * (C.D.gDual * C.D.dt))
    {w₀ v₀ : World V} (h₀ : w₀.Fresh) (hf : w₀.NoFail) (g₀ : v₀.Fresh) (gf : v₀.NoFail) (u1 u2 v1 v2 : V)
    (ops ops₂ : List (Op V)) (hops : ∀ op ∈ ops, ¬ op.WritesInitial) (hops₂ : ∀ op ∈ ops₂, ¬ op.WritesInitial)
    {r r₂ : Ref} {w₁ v₁ : World V}
    (h : getSpacetimeRhs C (runOps C (.setupFE :: .setInitial u1 u2 :: ops) w₀) = (.ok r, w₁))
    (h₂ : getSpacetimeRhs C₂ (runOps C₂ (.setupFE :: .setInitial v1 v2 :: ops₂) v₀) = (.ok r₂, v₁))
    {w₀' v₀' : World V} (h₀' : w₀'.Fresh) (g₀' : v₀'.Fresh) (opsA opsA₂ : List (Op V))
    (hopsA : ∀ op ∈ opsA, ¬ op.OtherFlag false) (hopsA₂ : ∀ op ∈ opsA₂, ¬ op.OtherFlag false) {A A₂ : Mat}
    {w₂ v₂ : World V} (hA : getSpacetimeMatrix C false (runOps C opsA w₀') = (.ok A, w₂))
    (hA₂ : getSpacetimeMatrix C₂ false (runOps C₂ opsA₂ v₀') = (.ok A₂, v₂))
    {Q : ℕ → (ℝ → ℝ) → ℝ} (hQ : ∀ n < C.D.N, RuleOnSlab B.qr C.D.dt n (Q n))
    (x y : Vec) (hx : ∀ d < C.full.size, A.mult x d = w₁.heap r d)
    (hy : ∀ d < C.full.size, A₂.mult y d = v₁.heap r₂ d) :
    Spec.energy C.S C.D C.D.ind (C.full.field C.fe x - C.full.field C.fe y)
      ≤ 2 * Spec.dataSize C.S C.D C.D.ind Q (fun t => a.sol t - sol₂ t) (u1 - v1) (u2 - v2) := by
  have hr := (construct_qr hb).1
  have hqr : B₂.qr = B.qr := Except.ok.inj ((construct_qr hb₂).1.symm.trans hr)
  obtain ⟨b, hbt, rfl⟩ := construct_facts hb
  obtain ⟨b₂, hbt₂, rfl⟩ := construct_facts hb₂
  have hD₂ : C₂.D = { C.D with sol := sol₂ } := by rw [hB₂.D, hB.D]; rfl
  have hD : C.D = { C.D with sol := a.sol } := by rw [hB.D]; rfl
  have hsub : C.full.field C.fe x - C.full.field C.fe y = C.full.field C.fe (x - y) :=
    ((fieldLin C.full C.fe).map_sub x y).symm
  rw [hsub]
  obtain ⟨z, hz⟩ := exists_flip hC.full (fe := C.fe) (x - y)
  have eA := (C32_same_flag_partial h₀' false opsA hopsA).1 A w₂ hA
  have eA₂ := (C32_same_flag_partial g₀' false opsA₂ hopsA₂).1 A₂ v₂ hA₂
  have eAA : A₂ = A := by
    rw [eA, eA₂, stMatOf, stMatOf, hSS, hfe, hL, hD₂]; rfl
  rw [eAA] at hy
  have l1 := C63_rhs_vector hb hC hB h₀ hf u1 u2 ops hops h hQ z
  have l2 := C63_rhs_vector hb₂ hC₂ hB₂ g₀ gf v1 v2 ops₂ hops₂ h₂ (Q := Q)
    (fun n hn => by rw [hqr, hD₂]; rw [hD₂] at hn; exact hQ n hn) z
  rw [hL, hfe, hSS, hD₂] at l2
  have f1 : ∑ d ∈ range C.full.size, A.mult x d * z d
      = evalForm C.S C.D.ind (C.D.stForm false) (C.full.field C.fe x) (C.full.field C.fe z) := by
    rw [eA]; exact assemble_pair C.S C.D.ind (C.D.stForm false) C.fe C.full hC.full x z
  have f2 : ∑ d ∈ range C.full.size, A.mult y d * z d
      = evalForm C.S C.D.ind (C.D.stForm false) (C.full.field C.fe y) (C.full.field C.fe z) := by
    rw [eA]; exact assemble_pair C.S C.D.ind (C.D.stForm false) C.fe C.full hC.full y z
  rw [sum_congr rfl fun d hd => by rw [hx d (mem_range.1 hd)]] at f1
  rw [sum_congr rfl fun d hd => by rw [hy d (mem_range.1 hd)]] at f2
  have f3 : evalForm C.S C.D.ind (C.D.stForm false) (C.full.field C.fe (x - y)) (C.full.field C.fe z)
      = evalForm C.S C.D.ind (C.D.stForm false) (C.full.field C.fe x) (C.full.field C.fe z)
        - evalForm C.S C.D.ind (C.D.stForm false) (C.full.field C.fe y) (C.full.field C.fe z) := by
    rw [← hsub]
    have := (formBilin C.S C.D.ind (C.D.stForm false)).map_sub (C.full.field C.fe x) (C.full.field C.fe y)
    exact congrArg (fun f => f (C.full.field C.fe z)) this
  have hload := load_sub (r := (builtOf interp a om b).qr) C.S C.D C.D.ind hQ a.sol sol₂ u1 u2 v1 v2 (C.full.field C.fe z)
  rw [← hD] at hload
  have st := C14_stability_identity C.S C.D hC.disc C.D.ind (C.full.field C.fe (x - y))
  rw [← hz, f3, ← f1, ← f2, l1, l2] at st
  have young := load_young hC.disc hS hp.weights hr hQ (fun t => a.sol t - sol₂ t) (u1 - v1) (u2 - v2) (C.full.field C.fe z)
  rw [← hload] at young
  have flipE : Spec.energy C.S C.D C.D.ind (C.full.field C.fe z) = Spec.energy C.S C.D C.D.ind (C.full.field C.fe (x - y)) := by
    rw [hz, energy_flip]
  have small := placeholder_small hC hS hp ho hK hN (x - y)
  have hE0 := C14_energy_nonneg C.S C.D C.D.ind hS hp.weights (C.full.field C.fe (x - y))
  rw [abs_le] at small
  change _ + _ - (Spec.load C.S { C.D with sol := sol₂ } C.D.ind v1 v2 Q (C.full.field C.fe z) + _) = _ at st
  rw [flipE] at young
  linarith [small.1, small.2]

namespace Example

theorem built3' (sol : ℝ → V3) : ∃ B, construct LinearMap.id { args3 with sol := sol } ⟨(1, 0, 0), false⟩
      = (.ok B, ⟨(1, 0, 0), false⟩) ∧
    (cfg3 B).Ok ∧ (cfg3 B).OfBuilt B ∧ B.D.Positive ∧ B.D.ind = (1, 0, 0) ∧ B.D.wellPosed = true ∧
    B.D.N = 2 ∧ B.D.dt = 1 / 2 ∧ B.D.qstar = 1 ∧ B.D.gDual = 1 ∧ B.D.gJump = 1 ∧
    B.D.lam = 5 ∧ B.D.sol = sol := by
  obtain ⟨b, -, e⟩ := construct_run (interp := LinearMap.id) (a := { args3 with sol := sol }) (om := ⟨(1, 0, 0), false⟩)
    (by simp [args3]) args3_supported
  have hdt : (builtOf LinearMap.id { args3 with sol := sol } ⟨(1, 0, 0), false⟩ b).D.dt = 1 / 2 := by simp [builtOf, args3]
  refine ⟨_, e, ?_, ?_, ?_, rfl, rfl, rfl, hdt, rfl, rfl, rfl, by norm_num [builtOf, args3], rfl⟩
  · exact ⟨⟨getElmatTime_ok (by simp [cfg3, builtOf, args3]) (by simp [cfg3, builtOf, args3]),
      by change _ ≠ _; rw [cfg3, hdt]; norm_num⟩, stdSpace_ok _ _, rfl,
      stdSpace_ok _ _, rfl, stdSpace_ok _ _, rfl, stdSpace_ok _ _, rfl⟩
  · constructor <;> simp [cfg3, builtOf, QuadRule.currentPts, QuadRule.tWeights, gaussRadau]
  · constructor <;> norm_num [builtOf, args3]

/-- C70 applies to the two-slab problem of the standing wave, with any noise in the measurements and in the
initial state: both systems have solutions, and their difference is bounded. -/
example (noise : ℝ → V3) (e1 e2 : V3) : ∃ B B₂ w₁ v₁ A A₂ w₂ v₂ x y,
    getSpacetimeRhs (cfg3 B) (runOps (cfg3 B) [.setupFE, .setInitial (wave3.u1 0) (wave3.u2 0)] (freshWorld fun _ => 0))
      = (.ok .rhs, w₁) ∧
    getSpacetimeRhs (cfg3 B₂) (runOps (cfg3 B₂) [.setupFE, .setInitial (wave3.u1 0 + e1) (wave3.u2 0 + e2)]
      (freshWorld fun _ => 0)) = (.ok .rhs, v₁) ∧
    getSpacetimeMatrix (cfg3 B) false (runOps (cfg3 B) [.setupFE] (freshWorld fun _ => 0)) = (.ok A, w₂) ∧
    getSpacetimeMatrix (cfg3 B₂) false (runOps (cfg3 B₂) [.setupFE] (freshWorld fun _ => 0)) = (.ok A₂, v₂) ∧
    (∀ d < (cfg3 B).full.size, A.mult x d = w₁.heap .rhs d) ∧ (∀ d < (cfg3 B).full.size, A₂.mult y d = v₁.heap .rhs d) ∧
    ∃ Q : ℕ → (ℝ → ℝ) → ℝ, (∀ n, RuleOnSlab B.qr (1 / 2) n (Q n)) ∧
      Spec.energy modeSpace B.D (1, 0, 0) ((cfg3 B).full.field fe3 x - (cfg3 B).full.field fe3 y)
        ≤ 2 * Spec.dataSize modeSpace B.D (1, 0, 0) Q (fun t => wave3.u1 t - (wave3.u1 t + noise t))
            (wave3.u1 0 - (wave3.u1 0 + e1)) (wave3.u2 0 - (wave3.u2 0 + e2)) := by
  obtain ⟨B, hb, hC, hO, hP, hi, hwp, hN, hdt, hqs, hgd, hgj, -⟩ := built3' wave3.u1
  obtain ⟨B₂, hb₂, hC₂, hO₂, hP₂, hi₂, hwp₂, hN₂, hdt₂, -⟩ := built3' fun t => wave3.u1 t + noise t
  obtain ⟨w₁, hr⟩ := getRhs_after (cfg3 B) (fun _ => 0) (wave3.u1 0) (wave3.u2 0) []
  obtain ⟨v₁, hr₂⟩ := getRhs_after (cfg3 B₂) (fun _ => 0) (wave3.u1 0 + e1) (wave3.u2 0 + e2) []
  obtain ⟨w₂, hm⟩ := getMatrix_ok (cfg3 B) false fun _ => 0
  obtain ⟨v₂, hm₂⟩ := getMatrix_ok (cfg3 B₂) false fun _ => 0
  have hi' : (cfg3 B).D.ind = (1, 0, 0) := hi
  have hi₂' : (cfg3 B₂).D.ind = (1, 0, 0) := hi₂
  have hS : (cfg3 B).S.Psd (cfg3 B).D.ind := by rw [hi']; exact modeSpace_psd
  obtain ⟨hsz, hU⟩ := C15_unique_solution hC hS modeSpace_definite hP hwp fe3_indep
    (freshWorld_fresh _) [.setupFE] (by simp [Op.OtherFlag]) hm
  obtain ⟨hsz₂, hU₂⟩ := C15_unique_solution hC₂ (by rw [hi₂']; exact modeSpace_psd) modeSpace_definite hP₂ hwp₂ fe3_indep
    (freshWorld_fresh _) [.setupFE] (by simp [Op.OtherFlag]) hm₂
  obtain ⟨x, hx, -⟩ := hU (w₁.heap .rhs)
  obtain ⟨y, hy, -⟩ := hU₂ (v₁.heap .rhs)
  rw [hsz] at hx
  rw [hsz₂] at hy
  choose Q hQ using exists_ruleOnSlab (construct_qr hb).1 (1 / 2)
  refine ⟨B, B₂, w₁, v₁, _, _, w₂, v₂, x, y, hr, hr₂, hm, hm₂, hx, hy, Q, hQ, ?_⟩
  have hN' : 0 < (cfg3 B).D.N := by change 0 < B.D.N; rw [hN]; norm_num
  have key := C70_stability (sol₂ := fun t => wave3.u1 t + noise t) hb hb₂ hC hO hC₂ hO₂ rfl rfl rfl hS hP hN'
    (C68_initial_values_observe hC hS modeSpace_definite hP hwp hN')
    (by
      change B.D.dt / B.D.gJump * ((1e-20) ^ 2 * ((B.D.qstar : ℝ) + 1) ^ 2) ≤ 1e-2 * (B.D.gDual * B.D.dt)
      rw [hdt, hqs, hgd, hgj]; norm_num)
    (freshWorld_fresh _) (freshWorld_noFail _) (freshWorld_fresh _) (freshWorld_noFail _) _ _ _ _ [] [] (by simp) (by simp)
    hr hr₂ (freshWorld_fresh _) (freshWorld_fresh _) [.setupFE] [.setupFE] (by simp [Op.OtherFlag])
    (by simp [Op.OtherFlag]) hm hm₂
    (Q := Q) (fun n _ => by rw [show (cfg3 B).D.dt = 1 / 2 from hdt]; exact hQ n) x y hx hy
  rw [hi'] at key
  exact key

end Example

end Dxss
