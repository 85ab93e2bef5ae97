import Verif.Lemmas.Legendre
import Verif.Lemmas.Elliptic1
import Verif.Lemmas.Pk
import Verif.Props.AnyOrder

/-!
# Property C107: elements of every order in one dimension, with explicit constants

C106 gives some constant; here is one, and what it means for solve_1d.py with any value of `ORDER` the library supports.
-/

namespace Dxss
open Finset

section
variable {V : Type} [AddCommGroup V] [Module ℝ V]

/-- Boundary values, jumps of the gradient and the elementwise Laplacian control the finite element functions. -/
def Cfg.EllipticBound (C : Cfg V) (c : ℝ) : Prop :=
  ∀ u ∈ C.fe.primal, C.S.mass u u ≤ c * (C.D.lam * C.S.pen u u + C.S.ghost u u + C.S.h2 (C.S.lap u) (C.S.lap u))

/-- The constant of C107; `c` is the constant of the spatial estimate, `H` bounds the squares of the cell diameters. -/
noncomputable def orderConst (c H dt g : ℝ) : ℝ :=
  7 * c / g * (13 + 340 * (H / dt ^ 2) + c * (H / dt ^ 4) * (12528 + 115200 * (H / dt ^ 2)))

theorem orderConst_nonneg {c H dt g : ℝ} (hc : 0 ≤ c) (hH : 0 ≤ H) (hdt : 0 < dt) (hg : 0 < g) : 0 ≤ orderConst c H dt g := by
  unfold orderConst; positivity

/-- C107: the energy of the difference of two discrete states controls the difference on all slabs. -/
theorem C107_control {C : Cfg V} (hC : C.Ok) (hS : C.S.Psd C.D.ind) (hp : C.D.Positive) {c H : ℝ} (hc0 : 0 ≤ c) (hH0 : 0 ≤ H)
    (hc : C.EllipticBound c) (hH : ∀ v, C.S.h2 v v ≤ H * C.S.mass v v) (x y : Vec) :
    ∑ n ∈ range C.D.N, slabSq C.S.mass C.D.q C.D.dt n (C.full.field C.fe x 0 - C.full.field C.fe y 0)
      ≤ orderConst c H C.D.dt C.D.gPrimal * Spec.energy C.S C.D C.D.ind (C.full.field C.fe x - C.full.field C.fe y) := by
  have hw := hp.weights
  have hdt := hp.dt
  have hq := hC.disc.hq
  have hg := hp.primal
  set U : Field V := C.full.field C.fe x - C.full.field C.fe y with hU
  rw [energy_eq, mul_sum]
  refine sum_le_sum fun n _ => ?_
  have hmem : ∀ i, U 0 i ∈ C.fe.primal := by
    intro i
    have : ∀ z : Vec, C.full.field C.fe z 0 i ∈ C.fe.primal := by
      intro z
      unfold FSpace.field
      split
      · exact Submodule.sum_mem _ fun s hs => Submodule.smul_mem _ _ (Submodule.subset_span ⟨s, mem_range.1 hs, rfl⟩)
      · exact Submodule.zero_mem _
    exact Submodule.sub_mem _ (this x) (this y)
  obtain ⟨b, hbm, hb, hb'⟩ := leg_coeffs hq (blk C.D.q n (U 0))
  obtain ⟨d, -, hd, hd'⟩ := leg_coeffs hq (blk C.D.q n (U 1))
  have hleg := slab_leg hC.disc hS hw n U hb hb' hd hd' (ind := C.D.ind)
  set I := ∫ t in (n * C.D.dt)..((n + 1 : ℕ) * C.D.dt), eDens C.S C.D C.D.ind U n t with hI
  have hbot := eBot_nonneg U hS hw n
  set T : ℕ → ℝ := fun l => C.D.lam * C.S.pen (b l) (b l) + C.S.ghost (b l) (b l)
        + C.S.mass (d l - (1 / C.D.dt) • legD b l) (d l - (1 / C.D.dt) • legD b l)
        + C.S.h2 ((1 / C.D.dt) • legD d l - C.S.lap (b l)) ((1 / C.D.dt) • legD d l - C.S.lap (b l)) with hT
  have hT0 : ∀ l, 0 ≤ T l := fun l => by
    have := mul_nonneg hw.lam (hS.pen (b l)); have := hS.ghost (b l)
    have := hS.mass (d l - (1 / C.D.dt) • legD b l); have := hS.h2 ((1 / C.D.dt) • legD d l - C.S.lap (b l))
    simp only [hT]; positivity
  have hTE : ∀ l < 4, T l ≤ 7 * I / (C.D.dt * C.D.gPrimal) := by
    intro l hl
    have hpos : 0 < C.D.dt * C.D.gPrimal := by positivity
    rw [le_div_iff₀ hpos]
    have h1 : T l / (2 * l + 1) ≤ ∑ l ∈ range 4, T l / (2 * l + 1) :=
      single_le_sum (f := fun l : ℕ => T l / (2 * (l:ℝ) + 1)) (fun i _ => div_nonneg (hT0 i) (by positivity)) (mem_range.2 hl)
    have h2 : T l / 7 ≤ T l / (2 * l + 1) := by
      refine div_le_div_of_nonneg_left (hT0 l) (by positivity) ?_
      have : (l:ℝ) ≤ 3 := by exact_mod_cast Nat.lt_succ_iff.1 hl
      linarith
    have h3 := mul_le_mul_of_nonneg_left (h2.trans h1) hpos.le
    have h4 := h3.trans hleg
    linarith
  have hch := elliptic_chain hS hw.lam hdt hc0 hH0 hH (fun l => hc _ (hbm _ (fun j _ => hmem _) l)) hTE
  have hsl : slabSq C.S.mass C.D.q C.D.dt n (U 0)
      = C.D.dt * (C.S.mass (b 0) (b 0) + C.S.mass (b 1) (b 1) / 3 + C.S.mass (b 2) (b 2) / 5 + C.S.mass (b 3) (b 3) / 7) := by
    rw [← int_leg _ C.S.mass_symm, slabSq]
    have := intervalIntegral.smul_integral_comp_add_mul (a := (0:ℝ)) (b := 1) (fun t => C.S.mass (Spec.val C.D.q C.D.dt n (U 0) t)
      (Spec.val C.D.q C.D.dt n (U 0) t)) C.D.dt (n * C.D.dt)
    simp only [smul_eq_mul, mul_zero, mul_one, add_zero] at this
    rw [show ((n + 1 : ℕ) : ℝ) * C.D.dt = n * C.D.dt + C.D.dt by push_cast; ring, ← this]
    congr 1
    refine intervalIntegral.integral_congr fun s _ => ?_
    have vl : Spec.val C.D.q C.D.dt n (U 0) (n * C.D.dt + C.D.dt * s) = ∑ l ∈ range 4, leg l s • b l := by
      rw [← hb]
      have e : (n * C.D.dt + C.D.dt * s - n * C.D.dt) / C.D.dt = s := by field_simp; ring
      simp only [Spec.val, comb, blk, e]
    simp only [vl]
  change slabSq C.S.mass C.D.q C.D.dt n (U 0) ≤ _
  rw [hsl]
  have m0 := fun l => hS.mass (b l)
  have hle : C.D.dt * (C.S.mass (b 0) (b 0) + C.S.mass (b 1) (b 1) / 3 + C.S.mass (b 2) (b 2) / 5 + C.S.mass (b 3) (b 3) / 7)
      ≤ C.D.dt * (c * (7 * I / (C.D.dt * C.D.gPrimal)) * (13 + 340 * (H / C.D.dt ^ 2) + c * (H / C.D.dt ^ 4)
        * (12528 + 115200 * (H / C.D.dt ^ 2)))) := by
    refine mul_le_mul_of_nonneg_left (le_trans ?_ hch) hdt.le
    linarith [m0 1, m0 2, m0 3]
  have e : C.D.dt * (c * (7 * I / (C.D.dt * C.D.gPrimal)) * (13 + 340 * (H / C.D.dt ^ 2) + c * (H / C.D.dt ^ 4)
        * (12528 + 115200 * (H / C.D.dt ^ 2)))) = orderConst c H C.D.dt C.D.gPrimal * I := by
    unfold orderConst; field_simp
  rw [e] at hle
  have := mul_nonneg (orderConst_nonneg hc0 hH0 hdt hg) hbot
  linarith

/-- C107: discrete observability with an explicit constant, for elements of every order; no data and no initial values are needed. -/
theorem C107_observable {C : Cfg V} (hC : C.Ok) (hS : C.S.Psd C.D.ind) (hd : C.S.Definite) (hp : C.D.Positive) (hlam : 0 < C.D.lam)
    (hN : 0 < C.D.N) {c H : ℝ} (hc0 : 0 ≤ c) (hH0 : 0 ≤ H) (hc : C.EllipticBound c) (hH : ∀ v, C.S.h2 v v ≤ H * C.S.mass v v) :
    C.Observable (orderConst c H C.D.dt C.D.gPrimal * ((C.D.q + 1) ^ 2 / C.D.dt)) := by
  have he : C.Elliptic := by
    intro u hu h1 h2 h3
    have := hc u hu
    rw [h1, h2, h3] at this
    simp only [map_zero, mul_zero, add_zero] at this
    exact hd.mass u (le_antisymm this (hS.mass u))
  refine ⟨fun x => ?_, C106_start hC hS hd hp hlam he hN⟩
  have hdt := hp.dt
  have h0 := C107_control hC hS hp hc0 hH0 hc hH x 0
  rw [field_zero, sub_zero, Pi.zero_apply, sub_zero] at h0
  have h1 := bottom_control hC.disc.hq hdt 0 C.S.mass hS.mass C.S.mass_symm (C.full.field C.fe x 0)
  have h2 : slabSq C.S.mass C.D.q C.D.dt 0 (C.full.field C.fe x 0) ≤ ∑ n ∈ range C.D.N, slabSq C.S.mass C.D.q C.D.dt n (C.full.field C.fe x 0) :=
    single_le_sum (f := fun n => slabSq C.S.mass C.D.q C.D.dt n (C.full.field C.fe x 0))
      (fun n _ => slabSq_nonneg C.S.mass hS.mass hdt _ n) (mem_range.2 hN)
  have h3 := h1.trans (h2.trans h0)
  have h5 := mul_le_mul_of_nonneg_left h3 (by positivity : 0 ≤ (C.D.q + 1 : ℝ) ^ 2 / C.D.dt)
  simp only [Nat.cast_zero, zero_mul] at h5
  have e : (C.D.q + 1 : ℝ) ^ 2 / C.D.dt * (C.D.dt / (C.D.q + 1) ^ 2 * C.S.mass (C.full.field C.fe x 0 0) (C.full.field C.fe x 0 0))
      = C.S.mass (C.full.field C.fe x 0 0) (C.full.field C.fe x 0 0) := by field_simp
  rw [e] at h5
  linarith
end

section
variable {m : Mesh1} {C : Cfg m.Broken}

/-- The constant of the spatial estimate on an interval mesh. -/
noncomputable def intervalConst (L hM hm lam : ℝ) (n : ℕ) : ℝ := 20 * L * hM / lam + 48 * L ^ 3 * n / hm + 2 * hM ^ 2

theorem interval_length (m : Mesh1) : 0 < m.x m.n - m.x 0 := by
  rw [← sum_range_sub m.x m.n]
  exact sum_pos (fun i hi => m.h_pos (mem_range.1 hi)) ⟨0, mem_range.2 m.pos⟩

theorem C107_elliptic (hS : C.S = m.space) (hlam : 0 < C.D.lam) {k : ℕ} (hfe : C.fe.primal ≤ m.lagrange k) {hm hM L : ℝ} (h0 : 0 < hm)
    (hh : ∀ i < m.n, hm ≤ m.h i ∧ m.h i ≤ hM) (hL : m.x m.n - m.x 0 = L) :
    0 ≤ intervalConst L hM hm C.D.lam m.n ∧ C.EllipticBound (intervalConst L hM hm C.D.lam m.n) := by
  have hL0 : 0 < L := hL ▸ interval_length m
  have hM0 : 0 < hM := h0.trans_le ((hh 0 m.pos).1.trans (hh 0 m.pos).2)
  have hPsd := m.space_psd (e := 0) fun i _ y _ => by rw [map_zero]; exact le_rfl
  refine ⟨by unfold intervalConst; positivity, fun u hu => ?_⟩
  have h1 := m.elliptic_control (m.mem_lagrange.1 (hfe hu)).2 h0 hh hL
  rw [hS]
  have p := hPsd.pen u; have g := hPsd.ghost u; have q := hPsd.h2 (m.space.lap u)
  set P := m.space.pen u u
  set G := m.space.ghost u u
  set Q := m.space.h2 (m.space.lap u) (m.space.lap u)
  refine h1.trans ?_
  have e : intervalConst L hM hm C.D.lam m.n * (C.D.lam * P + G + Q)
      = (20 * L * hM * P + 24 * L ^ 3 * m.n / hm * G + (48 * L ^ 3 * m.n / hm + 2 * hM ^ 2) * Q)
        + ((48 * L ^ 3 * m.n / hm + 2 * hM ^ 2) * (C.D.lam * P) + (20 * L * hM / C.D.lam + 24 * L ^ 3 * m.n / hm + 2 * hM ^ 2) * G
        + 20 * L * hM / C.D.lam * Q) := by
    unfold intervalConst; field_simp; ring
  rw [e]
  have : 0 ≤ (48 * L ^ 3 * m.n / hm + 2 * hM ^ 2) * (C.D.lam * P) + (20 * L * hM / C.D.lam + 24 * L ^ 3 * m.n / hm + 2 * hM ^ 2) * G
        + 20 * L * hM / C.D.lam * Q := by positivity
  linarith

theorem h2_le (m : Mesh1) {hM : ℝ} (hh : ∀ i < m.n, m.h i ≤ hM) (v : m.Broken) : m.space.h2 v v ≤ hM ^ 2 * m.space.mass v v := by
  rw [Mesh1.space_h2, Mesh1.space_mass, mul_sum]
  refine sum_le_sum fun i hi => ?_
  have hi := mem_range.1 hi
  exact mul_le_mul_of_nonneg_right (pow_le_pow_left₀ (m.h_pos hi).le (hh i hi) 2)
    (intervalIntegral.integral_nonneg (m.lt i hi).le fun y _ => mul_self_nonneg _)

/-- C107 on every mesh of an interval with continuous elements of every order: exactly one solution for every right-hand side, as soon
as an explicit expression in the mesh sizes, the length of the slabs and the stabilisation parameters is below `1e40`. -/
theorem C107_unique_solution (hC : C.Ok) (hS : C.S = m.space) (hind : m.Nonneg C.D.ind) (hp : C.D.Positive) (hlam : 0 < C.D.lam)
    (hN : 0 < C.D.N) {k : ℕ} (hfe : C.fe.primal ≤ m.lagrange k) (hi : C.fe.Indep) {hm hM L : ℝ} (h0 : 0 < hm)
    (hh : ∀ i < m.n, hm ≤ m.h i ∧ m.h i ≤ hM) (hL : m.x m.n - m.x 0 = L)
    (hK : orderConst (intervalConst L hM hm C.D.lam m.n) (hM ^ 2) C.D.dt C.D.gPrimal * ((C.D.q + 1) ^ 2 / C.D.dt)
      * ((1e-20) ^ 2 * (C.D.qstar + 1) ^ 2) < C.D.gDual * C.D.dt) {w₀ : World m.Broken} (h₀ : w₀.Fresh)
    (ops : List (Op m.Broken)) (hops : ∀ op ∈ ops, ¬ op.OtherFlag false) {A : Mat} {w₁ : World m.Broken}
    (h : getSpacetimeMatrix C false (runOps C ops w₀) = (.ok A, w₁)) :
    A.size = C.full.size ∧ A.UniquelySolvable := by
  have hPsd : C.S.Psd C.D.ind := hS ▸ m.space_psd hind
  have hd : C.S.Definite := hS ▸ m.space_definite
  obtain ⟨hc0, hc⟩ := C107_elliptic hS hlam hfe h0 hh hL
  exact C68_observable_unique_solution hC hPsd hd hp hi
    (C107_observable hC hPsd hd hp hlam hN hc0 (sq_nonneg hM) hc (by rw [hS]; exact h2_le m fun i hi => (hh i hi).2)) hK h₀ ops hops h
end

/-! ## solve_1d.py with `ORDER` 1, 2 or 3 -/

section
variable {V : Type} [AddCommGroup V] [Module ℝ V]

/-- The arguments of solve_1d.py:108-118 with `ORDER = k` (lines 65-69) and `N` slabs. -/
noncomputable def orderArgs (k : ℕ) (N : ℤ) (sol dsol : ℝ → V) : Args V :=
  { Script.d1.args sol dsol with N := N, otime := ⟨k, if k = 1 then 1 else 0⟩, ospace := ⟨k, 1⟩ }

/-- With `fitted=True` and without initial values the energy of the solution is of the size of the placeholder (C66, for any arguments). -/
theorem fitted_energy {interp : V →ₗ[ℝ] V} {a : Args V} {om om' : DataDomain V} {B : Built V} (hb : construct interp a om = (.ok B, om'))
    (hf : om.fitted = true) (hwp : a.parameters.wellPosed = false)
    {C : Cfg V} (hC : C.Ok) (hB : C.OfBuilt B) {w₀ : World V} (h₀ : w₀.Fresh) {r : Ref} {w₁ : World V}
    (h : scriptSetup C w₀ = (.ok r, w₁)) (x : Vec)
    (hx : ∀ d < C.full.size, (stMatOf C false).mult x d = w₁.heap r d) :
    let X := C.full.field C.fe x
    Spec.energy C.S C.D C.D.ind X = -(1e-20 * C.S.mass (C.S.one - X 0 0) (X 2 0)) := by
  intro X
  obtain ⟨y, hy⟩ := exists_flip hC.full (fe := C.fe) x
  have hw : B.D.wellPosed = false := by
    obtain ⟨b, -, e⟩ := construct_facts hb
    rw [e]; exact hwp
  have e1 : ∑ d ∈ range C.full.size, w₁.heap r d * y d = 1e-20 * C.S.mass C.S.one (C.full.field C.fe y 2 0) := by
    rw [C33_not_well_posed_partial (u := 0) (v := 0) (by rw [hB.D]; exact hw) h₀ _ (scriptSetup_getRhs h), rhsVecOf,
      assembleVec_pair C.S C.D.ind C.fe C.full hC.full, hB.D]
    exact C35_no_data_in_rhs hf hwp hb C.S C.pts C.ws 0 0 _
  have e2 := C14_stability_identity C.S C.D hC.disc C.D.ind X
  have e3 : evalForm C.S C.D.ind (C.D.stForm false) X (C.full.field C.fe y)
      = ∑ d ∈ range C.full.size, w₁.heap r d * y d := by
    rw [← assemble_pair C.S C.D.ind (C.D.stForm false) C.fe C.full hC.full x y]
    exact sum_congr rfl fun d hd => by rw [← hx d (mem_range.1 hd)]; rfl
  have e4 : C.full.field C.fe y 2 0 = - X 2 0 := by rw [hy]; simp [Spec.flipDual, X]
  rw [e1, e4] at e3
  rw [hy] at e3
  rw [e3] at e2
  rw [map_sub, LinearMap.sub_apply]
  rw [map_neg] at e2
  linarith

end

section
variable {n : ℕ} {hn : 0 < n} {N : ℤ} {interp : (Mesh1.unit n hn).Broken →ₗ[ℝ] (Mesh1.unit n hn).Broken}
  {om om' : DataDomain (Mesh1.unit n hn).Broken} {sol dsol : ℝ → (Mesh1.unit n hn).Broken} {B : Built (Mesh1.unit n hn).Broken}
  {C : Cfg (Mesh1.unit n hn).Broken} {k : ℕ}

/-- The data of solve_1d.py with `ORDER = k` and `N` slabs. -/
structure OrderData (C : Cfg (Mesh1.unit n hn).Broken) (k : ℕ) (N : ℤ) : Prop where
  pos : C.D.Positive
  lam : 5 ≤ C.D.lam
  dt : C.D.dt = 1 / N
  N : C.D.N = N.toNat
  q : C.D.q = k
  qstar : C.D.qstar ≤ 1
  primal : C.D.gPrimal = 1e-3
  dual : C.D.gDual = 1
  wp : C.D.wellPosed = false
  fw : C.D.jumpsFw = false

theorem order_data (hb : construct interp (orderArgs k N sol dsol) om = (.ok B, om')) (hN : 0 < N) (hk : 1 ≤ k)
    (hB : C.OfBuilt B) : OrderData C k N := by
  obtain ⟨b, -, e⟩ := construct_facts hb
  have hD := hB.D
  rw [e] at hD
  have hNR : (0:ℝ) < N := by exact_mod_cast hN
  have hdt : C.D.dt = 1 / N := by rw [hD]; simp [builtOf, orderArgs, Script.args, Script.T]
  have hlam : 5 ≤ C.D.lam := by
    rw [hD]
    have : (1:ℝ) ≤ k := by exact_mod_cast hk
    simp only [builtOf, orderArgs]
    push_cast
    nlinarith
  have hq : C.D.q = k := by rw [hD]; simp [builtOf, orderArgs]
  have hqs : C.D.qstar ≤ 1 := by
    rw [hD]; simp only [builtOf, orderArgs]
    split <;> simp
  have hd : C.D.gData = 1e4 := by rw [hD]; rfl
  have hdu : C.D.gDual = 1 := by rw [hD]; rfl
  have hpr : C.D.gPrimal = 1e-3 := by rw [hD]; rfl
  have hju : C.D.gJump = 1 := by rw [hD]; rfl
  refine ⟨⟨?_, ?_, ?_, ?_, ?_, ?_, ?_⟩, hlam, hdt, by rw [hD]; rfl, hq, hqs, hpr, hdu, by rw [hD]; rfl, by rw [hD]; rfl⟩
  · rw [hdt]; positivity
  · linarith
  · rw [hd]; norm_num
  · rw [hdu]; norm_num
  · rw [hpr]; norm_num
  · rw [hju]; norm_num
  · rw [hdu, hju]
    have : (C.D.qstar : ℝ) ≤ 1 := by exact_mod_cast hqs
    have h2 : ((C.D.qstar : ℝ) + 1) ^ 2 ≤ 4 := by nlinarith [(Nat.cast_nonneg C.D.qstar : (0:ℝ) ≤ C.D.qstar)]
    norm_num
    linarith

/-- The constants for these data. -/
theorem order_bound (hD : OrderData C k N) (hN : 0 < N) (hS : C.S = (Mesh1.unit n hn).space) {j : ℕ}
    (hfe : C.fe.primal ≤ (Mesh1.unit n hn).lagrange j) :
    C.EllipticBound (54 * n ^ 2) ∧ (∀ v, C.S.h2 v v ≤ (1 / n) ^ 2 * C.S.mass v v) ∧
    orderConst (54 * n ^ 2) ((1 / n) ^ 2) C.D.dt C.D.gPrimal
      = 378000 * n ^ 2 * (13 + 340 * (N / n) ^ 2 + 54 * N ^ 4 * (12528 + 115200 * (N / n : ℝ) ^ 2)) := by
  have hn1 : (1:ℝ) ≤ n := by exact_mod_cast hn
  have hNR : (0:ℝ) < N := by exact_mod_cast hN
  obtain ⟨-, hc⟩ := C107_elliptic (C := C) hS (by linarith [hD.lam]) hfe (hm := 1 / n) (hM := 1 / n) (L := 1) (by positivity)
    (fun i _ => by rw [unit_h hn]; exact ⟨le_rfl, le_rfl⟩) (unit_length hn)
  have hPsd := (Mesh1.unit n hn).space_psd (e := 0) fun i _ y _ => by rw [map_zero]; exact le_rfl
  refine ⟨fun u hu => (hc u hu).trans (mul_le_mul_of_nonneg_right ?_ ?_), fun v => ?_, ?_⟩
  · change 20 * 1 * (1 / (n:ℝ)) / C.D.lam + 48 * 1 ^ 3 * n / (1 / n) + 2 * (1 / n) ^ 2 ≤ _
    have h1 : 20 * 1 * (1 / (n:ℝ)) / C.D.lam ≤ 4 := by
      rw [div_le_iff₀ (by linarith [hD.lam])]
      have : 1 / (n:ℝ) ≤ 1 := by rw [div_le_one (by positivity)]; exact hn1
      linarith [hD.lam]
    have h2 : 48 * 1 ^ 3 * (n:ℝ) / (1 / n) = 48 * n ^ 2 := by field_simp
    have h3 : (1 / (n:ℝ)) ^ 2 ≤ 1 := pow_le_one₀ (by positivity) (by rw [div_le_one (by positivity)]; exact hn1)
    have h4 : (1:ℝ) ≤ n ^ 2 := one_le_pow₀ hn1
    rw [h2]
    linarith
  · rw [hS]
    have p := hPsd.pen u; have g := hPsd.ghost u; have o := hPsd.h2 ((Mesh1.unit n hn).space.lap u)
    have := hD.pos.lam
    positivity
  · rw [hS]
    exact h2_le _ (fun i _ => by rw [unit_h hn]) v
  · rw [hD.primal, hD.dt, orderConst]
    field_simp
    ring

/-- The constant of C107 for these data, times the square of the placeholder. -/
theorem order_le (hC : C.Ok) (hD : OrderData C k N) (hN : 0 < N) (hn : 0 < n)
    (h3 : orderConst (54 * n ^ 2) ((1 / n) ^ 2) C.D.dt C.D.gPrimal
      = 378000 * (n:ℝ) ^ 2 * (13 + 340 * (N / n) ^ 2 + 54 * N ^ 4 * (12528 + 115200 * (N / n : ℝ) ^ 2))) :
    orderConst (54 * n ^ 2) ((1 / n) ^ 2) C.D.dt C.D.gPrimal * ((C.D.q + 1) ^ 2 / C.D.dt) * ((1e-20) ^ 2 * (C.D.qstar + 1) ^ 2) * N
      ≤ 1.728e-26 * (n * N ^ 4) ^ 2 := by
  have hNR : (1:ℝ) ≤ N := by exact_mod_cast hN
  have hn1 : (1:ℝ) ≤ n := by exact_mod_cast hn
  rw [h3, hD.dt]
  have hq4 : ((C.D.q : ℝ) + 1) ^ 2 ≤ 16 := by
    have : (C.D.q : ℝ) ≤ 3 := by exact_mod_cast hC.disc.hq
    nlinarith [(Nat.cast_nonneg C.D.q : (0:ℝ) ≤ C.D.q)]
  have hq1 : ((C.D.qstar : ℝ) + 1) ^ 2 ≤ 4 := by
    have : (C.D.qstar : ℝ) ≤ 1 := by exact_mod_cast hD.qstar
    nlinarith [(Nat.cast_nonneg C.D.qstar : (0:ℝ) ≤ C.D.qstar)]
  set M : ℝ := (N : ℝ) with hM
  set Y : ℝ := n ^ 2 * M ^ 6 with hY
  have e : (n:ℝ) ^ 2 * (13 + 340 * (M / n) ^ 2 + 54 * M ^ 4 * (12528 + 115200 * (M / n : ℝ) ^ 2))
      = 13 * n ^ 2 + 340 * M ^ 2 + 676512 * (n ^ 2 * M ^ 4) + 6220800 * M ^ 6 := by field_simp; ring
  have m1 : (1:ℝ) ≤ M ^ 2 := one_le_pow₀ hNR
  have m2 : (1:ℝ) ≤ M ^ 4 := one_le_pow₀ hNR
  have m3 : (1:ℝ) ≤ M ^ 6 := one_le_pow₀ hNR
  have n2 : (1:ℝ) ≤ (n:ℝ) ^ 2 := one_le_pow₀ hn1
  have k1 : (n:ℝ) ^ 2 ≤ Y := by rw [hY]; nlinarith
  have k2 : M ^ 2 ≤ Y := by
    have : M ^ 2 ≤ M ^ 6 := pow_le_pow_right₀ hNR (by norm_num)
    rw [hY]; nlinarith
  have k3 : (n:ℝ) ^ 2 * M ^ 4 ≤ Y := mul_le_mul_of_nonneg_left (pow_le_pow_right₀ hNR (by norm_num)) (by positivity)
  have k4 : M ^ 6 ≤ Y := by rw [hY]; nlinarith
  have hX : 378000 * (n:ℝ) ^ 2 * (13 + 340 * (M / n) ^ 2 + 54 * M ^ 4 * (12528 + 115200 * (M / n : ℝ) ^ 2)) ≤ 2.7e12 * Y := by
    rw [mul_assoc, e]
    have : 0 ≤ Y := by positivity
    norm_num
    linarith
  have e2 : Y * M ^ 2 = (n * M ^ 4) ^ 2 := by rw [hY]; ring
  calc 378000 * (n:ℝ) ^ 2 * (13 + 340 * (M / n) ^ 2 + 54 * M ^ 4 * (12528 + 115200 * (M / n : ℝ) ^ 2)) * ((C.D.q + 1) ^ 2 / (1 / M))
        * ((1e-20) ^ 2 * (C.D.qstar + 1) ^ 2) * M
      ≤ 2.7e12 * Y * (16 / (1 / M)) * ((1e-20) ^ 2 * 4) * M := by gcongr
    _ = 1.728e-26 * (Y * M ^ 2) := by field_simp; norm_num; ring
    _ = 1.728e-26 * (n * M ^ 4) ^ 2 := by rw [e2]

/-- The placeholder is small against the constant of C107 for these data. -/
theorem order_small (hC : C.Ok) (hD : OrderData C k N) (hN : 0 < N) (hn : 0 < n) (hsize : (n : ℝ) * N ^ 4 ≤ 1e12)
    (h3 : orderConst (54 * n ^ 2) ((1 / n) ^ 2) C.D.dt C.D.gPrimal
      = 378000 * (n:ℝ) ^ 2 * (13 + 340 * (N / n) ^ 2 + 54 * N ^ 4 * (12528 + 115200 * (N / n : ℝ) ^ 2))) :
    orderConst (54 * n ^ 2) ((1 / n) ^ 2) C.D.dt C.D.gPrimal * ((C.D.q + 1) ^ 2 / C.D.dt) * ((1e-20) ^ 2 * (C.D.qstar + 1) ^ 2)
      < C.D.gDual * C.D.dt := by
  have hNR : (0:ℝ) < N := by exact_mod_cast hN
  rw [hD.dual, one_mul, show C.D.dt = 1 / (N:ℝ) from hD.dt, lt_div_iff₀ hNR, ← show C.D.dt = 1 / (N:ℝ) from hD.dt]
  refine (order_le hC hD hN hn h3).trans_lt ?_
  have hsz : (n * (N:ℝ) ^ 4) ^ 2 ≤ (1e12 : ℝ) ^ 2 := pow_le_pow_left₀ (by positivity) hsize 2
  norm_num at hsz ⊢
  linarith

/-- C107 for solve_1d.py with `ORDER` 1, 2 or 3, any number of cells and slabs up to a bound, and any data domain: the space-time matrix
has exactly one solution for every right-hand side. -/
theorem C107_solve_1d (hb : construct interp (orderArgs k N sol dsol) om = (.ok B, om')) (hN : 0 < N) (hk : 1 ≤ k)
    (hsize : (n : ℝ) * N ^ 4 ≤ 1e12) (hC : C.Ok) (hB : C.OfBuilt B) (hS : C.S = (Mesh1.unit n hn).space)
    (hind : (Mesh1.unit n hn).Nonneg C.D.ind) (hfe : C.fe.primal ≤ (Mesh1.unit n hn).lagrange k) (hi : C.fe.Indep)
    {w₀ : World (Mesh1.unit n hn).Broken} (h₀ : w₀.Fresh) (ops : List (Op (Mesh1.unit n hn).Broken))
    (hops : ∀ op ∈ ops, ¬ op.OtherFlag false) {A : Mat} {w₁ : World (Mesh1.unit n hn).Broken}
    (h : getSpacetimeMatrix C false (runOps C ops w₀) = (.ok A, w₁)) :
    A.size = C.full.size ∧ A.UniquelySolvable := by
  have hD := order_data hb hN hk hB
  have hPsd : C.S.Psd C.D.ind := hS ▸ (Mesh1.unit n hn).space_psd hind
  have hN0 : 0 < C.D.N := by rw [hD.N]; omega
  have hdef : C.S.Definite := hS ▸ (Mesh1.unit n hn).space_definite
  obtain ⟨h1, h2, h3⟩ := order_bound hD hN hS hfe
  refine C68_observable_unique_solution hC hPsd hdef hD.pos hi
    (C107_observable hC hPsd hdef hD.pos (by linarith [hD.lam]) hN0 (by positivity) (by positivity) h1 h2) (order_small hC hD hN hn hsize h3) h₀ ops hops h

end
end Dxss
