import Verif.Lemmas.TriElliptic
import Verif.Lemmas.TriVolume
import Verif.Lemmas.Pk
import Verif.Lemmas.Grid

/-! # Elements on triangulations; triangulations of the unit square -/

namespace Dxss
open Finset MeasureTheory

namespace AnaD

/-- Polynomials in two variables, given by their coefficients. -/
noncomputable def poly2 (k : ℕ) : (Fin (k + 1) → Fin (k + 1) → ℝ) →ₗ[ℝ] AnaD 2 where
  toFun c := ∑ i, ∑ j, c i j • ⟨fun x => x 0 ^ (i:ℕ) * x 1 ^ (j:ℕ),
    mem (AnalyticOnNhd.mul (((ContinuousLinearMap.proj (R := ℝ) (φ := fun _ : Fin 2 => ℝ) 0).analyticOnNhd _).fun_pow _)
      (((ContinuousLinearMap.proj (R := ℝ) (φ := fun _ : Fin 2 => ℝ) 1).analyticOnNhd _).fun_pow _))⟩
  map_add' a b := by simp only [Pi.add_apply, add_smul, sum_add_distrib]
  map_smul' r a := by simp only [Pi.smul_apply, smul_sum, smul_smul, smul_eq_mul, RingHom.id_apply]

theorem poly2_apply (k : ℕ) (c : Fin (k + 1) → Fin (k + 1) → ℝ) (x : Fin 2 → ℝ) :
    (poly2 k c).1 x = ∑ i, ∑ j, c i j * (x 0 ^ (i:ℕ) * x 1 ^ (j:ℕ)) := by
  change ((∑ i, ∑ j, c i j • _ : AnaD 2)).1 x = _
  rw [Submodule.coe_sum, Finset.sum_apply]
  refine sum_congr rfl fun i _ => ?_
  rw [Submodule.coe_sum, Finset.sum_apply]
  rfl

end AnaD

namespace Tri
variable (m : Tri)

noncomputable def ofPoly (k : ℕ) : (Fin m.n → Fin (k + 1) → Fin (k + 1) → ℝ) →ₗ[ℝ] m.Broken :=
  LinearMap.pi fun K => (AnaD.poly2 k).comp (LinearMap.proj K)

theorem lagrange_finite (k : ℕ) : FiniteDimensional ℝ (m.lagrange k) := by
  have : m.lagrange k ≤ LinearMap.range (m.ofPoly k) := by
    intro u hu
    choose c hc using hu.1
    refine ⟨fun K i j => if (j:ℕ) < k + 1 - i then c K i j else 0, funext fun K => Subtype.ext (funext fun x => ?_)⟩
    rw [hc K x]
    refine (AnaD.poly2_apply _ _ _).trans ?_
    rw [← Fin.sum_univ_eq_sum_range fun i => ∑ j ∈ range (k + 1 - i), c K i j * (x 0 ^ i * x 1 ^ j)]
    refine sum_congr rfl fun i _ => ?_
    refine (Fin.sum_univ_eq_sum_range (fun j => (if j < k + 1 - i then c K i j else 0) * (x 0 ^ (i:ℕ) * x 1 ^ j)) (k + 1)).trans ?_
    have hs : range (k + 1 - i) ⊆ range (k + 1) := fun j hj => mem_range.2 ((mem_range.1 hj).trans_le (Nat.sub_le _ _))
    rw [← sum_subset hs fun j _ hj => by rw [if_neg (by simpa using hj), zero_mul]]
    exact sum_congr rfl fun j hj => by rw [if_pos (mem_range.1 hj)]
  exact Submodule.finiteDimensional_of_le this

/-- Continuous elements of order `k` for the primal and `kstar` for the dual components, space_time.py:253-264.  Which basis DOLFINx takes
is left open. -/
noncomputable def cg (k kstar : ℕ) : FE m.Broken where
  mP := (exists_numbered _ (m.lagrange_finite k)).choose
  bP := (exists_numbered _ (m.lagrange_finite k)).choose_spec.choose
  mD := (exists_numbered _ (m.lagrange_finite kstar)).choose
  bD := (exists_numbered _ (m.lagrange_finite kstar)).choose_spec.choose

theorem cg_primal (k kstar : ℕ) : (m.cg k kstar).primal = m.lagrange k :=
  (exists_numbered _ (m.lagrange_finite k)).choose_spec.choose_spec.1
theorem cg_dual (k kstar : ℕ) : (m.cg k kstar).dual = m.lagrange kstar :=
  (exists_numbered _ (m.lagrange_finite kstar)).choose_spec.choose_spec.1

theorem cg_indep (k kstar : ℕ) : (m.cg k kstar).Indep := by
  have prim := (exists_numbered _ (m.lagrange_finite k)).choose_spec.choose_spec.2
  have dual := (exists_numbered _ (m.lagrange_finite kstar)).choose_spec.choose_spec.2
  intro c a
  fin_cases c
  · exact prim a
  · exact prim a
  · exact dual a
  · exact dual a

/-- Triangle `K` as a set of points. -/
def tri (K : Fin m.n) : Set (Fin 2 → ℝ) := hull (m.v K 0) (m.v K 1) (m.v K 2)

/-- The triangles cover the unit square, any two of them have at most a set of measure zero in common. -/
structure Tiles : Prop where
  cover : ⋃ K, m.tri K = Set.Icc 0 1
  disj : Pairwise fun K L => volume (m.tri K ∩ m.tri L) = 0

variable {m}
/-- Integrals over the unit square are sums of integrals over the triangles. -/
theorem Tiles.int (h : m.Tiles) (f : AnaD 2) : ∑ K, cellInt (m := m) K f = ∫ x in (0:ℝ)..1, ∫ y in (0:ℝ)..1, f.1 ![x, y] := by
  have e : ∑ K, cellInt (m := m) K f = ∫ x in Set.Icc (0 : Fin 2 → ℝ) 1, f.1 x := by
    have hi : IntegrableOn f.1 (⋃ K, m.tri K) := by
      rw [h.cover]; exact (AnaD.cont f).continuousOn.integrableOn_compact isCompact_Icc
    rw [← h.cover, integral_iUnion_ae (s := m.tri) (fun K => (hull_meas _ _ _).nullMeasurableSet) h.disj hi, tsum_fintype]
    exact sum_congr rfl fun K _ => AnaD.triInt_volume (m.pos K) f
  rw [e]
  have e1 : ∫ x in Set.Icc (0 : Fin 2 → ℝ) 1, f.1 x = ∫ z in Set.Icc (0:ℝ) 1 ×ˢ Set.Icc (0:ℝ) 1, f.1 ![z.1, z.2] := by
    have h := (volume_preserving_finTwoArrow ℝ).symm.setIntegral_preimage_emb (MeasurableEquiv.measurableEmbedding _) f.1
      (Set.Icc (0 : Fin 2 → ℝ) 1)
    rw [← h]
    have : (MeasurableEquiv.finTwoArrow (α := ℝ)).symm ⁻¹' Set.Icc (0 : Fin 2 → ℝ) 1 = Set.Icc (0:ℝ) 1 ×ˢ Set.Icc (0:ℝ) 1 := by
      ext ⟨x, y⟩
      simp [MeasurableEquiv.finTwoArrow, Pi.le_def, Fin.forall_fin_two]
    rw [this]
    rfl
  have hc : Continuous fun z : ℝ × ℝ => f.1 ![z.1, z.2] := (AnaD.cont f).comp (by fun_prop)
  rw [e1, Measure.volume_eq_prod, setIntegral_prod _ (hc.continuousOn.integrableOn_compact (isCompact_Icc.prod isCompact_Icc)),
    integral_Icc_eq_integral_Ioc, ← intervalIntegral.integral_of_le zero_le_one]
  refine intervalIntegral.integral_congr fun x _ => ?_
  change ∫ y in Set.Icc (0:ℝ) 1, f.1 ![x, y] = _
  rw [integral_Icc_eq_integral_Ioc, ← intervalIntegral.integral_of_le zero_le_one]

theorem Tiles.mass (h : m.Tiles) (f g : AnaD 2) :
    m.space.mass (m.fn f) (m.fn g) = ∫ x in (0:ℝ)..1, ∫ y in (0:ℝ)..1, f.1 ![x, y] * g.1 ![x, y] := by
  rw [space_mass]
  exact h.int (AnaD.mul f g)

theorem Tiles.one (h : m.Tiles) : m.space.mass m.space.one m.space.one = 1 := by
  refine (h.mass ⟨fun _ => 1, AnaD.mem analyticOnNhd_const⟩ ⟨fun _ => 1, AnaD.mem analyticOnNhd_const⟩).trans ?_
  simp

theorem Tiles.sines (h : m.Tiles) (c : ℝ) : m.space.mass (m.fn (AnaD.sines c)) (m.fn (AnaD.sines c)) = c ^ 2 / 4 := by
  rw [h.mass]
  have e : ∀ x y : ℝ, (AnaD.sines c : AnaD 2).1 ![x, y] * (AnaD.sines c : AnaD 2).1 ![x, y]
      = (c ^ 2 * (Real.sin (Real.pi * x) * Real.sin (Real.pi * x))) * (Real.sin (Real.pi * y) * Real.sin (Real.pi * y)) := by
    intro x y
    change (c * ∏ a : Fin 2, _) * (c * ∏ a : Fin 2, _) = _
    rw [Fin.prod_univ_two]
    simp only [Matrix.cons_val_zero, Matrix.cons_val_one]
    ring
  simp only [e, intervalIntegral.integral_const_mul, intervalIntegral.integral_mul_const, int_sin_pi_sq]
  ring

theorem exists_pos_le {ι : Type} [Finite ι] (f : ι → ℝ) (h : ∀ i, 0 < f i) : ∃ c, 0 < c ∧ ∀ i, c ≤ f i := by
  rcases isEmpty_or_nonempty ι with _ | _
  · exact ⟨1, one_pos, fun i => isEmptyElim i⟩
  · obtain ⟨i, hi⟩ := Finite.exists_min f
    exact ⟨f i, h i, hi⟩

theorem exists_ge {ι : Type} [Finite ι] (f : ι → ℝ) : ∃ c, 0 < c ∧ ∀ i, f i ≤ c := by
  rcases isEmpty_or_nonempty ι with _ | _
  · exact ⟨1, one_pos, fun i => isEmptyElim i⟩
  · obtain ⟨i, hi⟩ := Finite.exists_max f
    exact ⟨|f i| + 1, by positivity, fun j => (hi j).trans ((le_abs_self _).trans (by linarith))⟩

/-- Every triangulation has such bounds. -/
theorem exists_bounds (m : Tri) : ∃ hm hM δ R, m.Bounds hm hM δ R := by
  obtain ⟨hm, h0, h1⟩ := exists_pos_le (fun e : m.Edge => len e) len_pos
  obtain ⟨hM, -, h2⟩ := exists_ge fun e : m.Edge => len e
  obtain ⟨δ, h3, h4⟩ := exists_pos_le m.det m.pos
  obtain ⟨R, h5, h6⟩ := exists_ge fun p : Fin m.n × Fin 3 => m.v p.1 p.2 0 ^ 2 + m.v p.1 p.2 1 ^ 2
  exact ⟨hm, max hm hM, δ, √R, h0, le_max_left _ _, h3, Real.sqrt_pos.2 h5, h1, fun e => (h2 e).trans (le_max_right _ _), h4, fun K i => by rw [Real.sq_sqrt h5.le]; exact h6 (K, i)⟩

/-- A continuous function on a triangulation without boundary values, without jumps of the gradient and with vanishing Laplacian on
every triangle is zero. -/
theorem elliptic {u : m.Broken} (hu : m.Conforming u) (hp : m.space.pen u u = 0) (hg : m.space.ghost u u = 0) (hl : m.space.lap u = 0) :
    u = 0 := by
  obtain ⟨hm, hM, δ, R, h⟩ := m.exists_bounds
  have hB : m.bdSq u ≤ 0 := (bdSq_le h u).trans (by rw [hp, mul_zero])
  have hJ : m.jumpSq u ≤ 0 := by
    have := jumpSq_le h u
    rw [hg] at this
    have := h.hm0
    by_contra hc
    push Not at hc
    have := mul_pos h.hm0 hc
    linarith
  have hgr := m.green u hu
  rw [hl, map_zero, LinearMap.zero_apply] at hgr
  set X := (∑ e : m.Edge, if m.nb e = none then m.edgeL2 e (AnaD.dir (nrm e) (u e.1)) (AnaD.dir (nrm e) (u e.1)) else 0) / 2
    + (∑ e : m.Edge, m.edgeL2 e (u e.1) (u e.1)) / 4 with hX
  have hX0 : 0 ≤ X := by
    refine add_nonneg (div_nonneg (sum_nonneg fun e _ => ?_) (by norm_num)) (div_nonneg (sum_nonneg fun e _ => edgeL2_self e _) (by norm_num))
    split
    · exact edgeL2_self e _
    · exact le_rfl
  have hS : m.space.stiff u u ≤ 0 := by
    refine le_of_forall_pos_le_add fun ε hε => ?_
    have ha : 0 < ε / (X + 1) := by positivity
    have t2 := inner_le (u := u) ha
    have t3 := nit_le (u := u) ha
    have n1 : 1 / (2 * (ε / (X + 1))) * m.jumpSq u ≤ 0 := mul_nonpos_of_nonneg_of_nonpos (by positivity) hJ
    have n2 : 1 / (2 * (ε / (X + 1))) * m.bdSq u ≤ 0 := mul_nonpos_of_nonneg_of_nonpos (by positivity) hB
    have e : ε / (X + 1) * X ≤ ε := by
      rw [div_mul_eq_mul_div, div_le_iff₀ (by positivity)]
      nlinarith
    rw [hX] at e ha t2 t3 n1 n2
    linarith
  have hM := poincare h hu
  have hR := h.R0
  have : m.space.mass u u ≤ 0 := by
    have := mul_nonpos_of_nonneg_of_nonpos hR.le hB
    have := mul_nonpos_of_nonneg_of_nonpos (sq_nonneg R) hS
    linarith
  refine m.space_definite.mass u (le_antisymm this ?_)
  rw [space_mass]
  exact sum_nonneg fun K _ => cellL2_self K _

/-- The unit square, cut along a diagonal. -/
noncomputable def square : Tri where
  n := 2
  v := ![![![1, 0], ![1, 1], ![0, 0]], ![![0, 0], ![1, 1], ![0, 1]]]
  pos K := by fin_cases K <;> simp [det2]
  nb e := if e = (0, 1) then some (1, 0) else if e = (1, 0) then some (0, 1) else none
  sym e e' h := by
    revert h; revert e e'; decide
  glue e e' h := by
    have : (e = (0, 1) ∧ e' = (1, 0)) ∨ (e = (1, 0) ∧ e' = (0, 1)) := by
      revert h; revert e e'; decide
    rcases this with ⟨rfl, rfl⟩ | ⟨rfl, rfl⟩ <;> constructor <;> rfl

theorem square_tri0 : square.tri (0 : Fin 2) = {x | 0 ≤ x 1 ∧ x 1 ≤ x 0 ∧ x 0 ≤ 1} := by
  change hull ![1, 0] ![1, 1] ![0, 0] = _
  rw [hull_eq]
  ext x
  constructor
  · rintro ⟨p, ⟨p0, p1, p2⟩, rfl⟩
    simp [refPt]
    exact ⟨p0, by linarith, p1⟩
  · rintro ⟨h0, h1, h2⟩
    refine ⟨![x 1, 1 - x 0], ⟨by simpa using h0, by simpa using h2, by simp; linarith⟩, ?_⟩
    funext c
    fin_cases c <;> simp [refPt]

theorem square_tri1 : square.tri (1 : Fin 2) = {x | 0 ≤ x 0 ∧ x 0 ≤ x 1 ∧ x 1 ≤ 1} := by
  change hull ![0, 0] ![1, 1] ![0, 1] = _
  rw [hull_eq]
  ext x
  constructor
  · rintro ⟨p, ⟨p0, p1, p2⟩, rfl⟩
    simp [refPt]
    exact ⟨p0, p1, p2⟩
  · rintro ⟨h0, h1, h2⟩
    refine ⟨![x 0, x 1 - x 0], ⟨by simpa using h0, by simpa using h1, by simpa using h2⟩, ?_⟩
    funext c
    fin_cases c <;> simp [refPt]

theorem square_inter : volume (square.tri (0 : Fin 2) ∩ square.tri (1 : Fin 2)) = 0 := by
  let W : Submodule ℝ (Fin 2 → ℝ) := LinearMap.ker (LinearMap.proj (R := ℝ) (φ := fun _ : Fin 2 => ℝ) 0 - LinearMap.proj (R := ℝ) (φ := fun _ : Fin 2 => ℝ) 1)
  have hW : W ≠ ⊤ := by
    intro h
    have : (![1, 0] : Fin 2 → ℝ) ∈ W := h ▸ Submodule.mem_top
    simp [W] at this
  refine measure_mono_null ?_ (Measure.addHaar_submodule volume W hW)
  rw [square_tri0, square_tri1]
  rintro x ⟨⟨-, h1, -⟩, -, h2, -⟩
  change x 0 - x 1 = 0
  linarith

theorem square_tiles : square.Tiles where
  cover := by
    ext x
    simp only [Set.mem_iUnion, Set.mem_Icc, Pi.le_def, Fin.forall_fin_two, Pi.zero_apply, Pi.one_apply]
    constructor
    · rintro ⟨K, hK⟩
      have hc : ∀ K : Fin 2, K = 0 ∨ K = 1 := by decide
      rcases hc K with rfl | rfl
      · rw [square_tri0] at hK
        obtain ⟨h0, h1, h2⟩ := hK
        exact ⟨⟨by linarith, h0⟩, h2, by linarith⟩
      · rw [square_tri1] at hK
        obtain ⟨h0, h1, h2⟩ := hK
        exact ⟨⟨h0, by linarith⟩, by linarith, h2⟩
    · rintro ⟨⟨h0, h1⟩, h2, h3⟩
      rcases le_total (x 1) (x 0) with h | h
      · exact ⟨(0 : Fin 2), by rw [square_tri0]; exact ⟨h1, h, h2⟩⟩
      · exact ⟨(1 : Fin 2), by rw [square_tri1]; exact ⟨h0, h, h3⟩⟩
  disj K L h := by
    have hc : ∀ K L : Fin 2, K ≠ L → (K = 0 ∧ L = 1) ∨ (K = 1 ∧ L = 0) := by decide
    rcases hc K L h with ⟨rfl, rfl⟩ | ⟨rfl, rfl⟩
    · exact square_inter
    · exact (congrArg volume (Set.inter_comm (square.tri (1 : Fin 2)) (square.tri (0 : Fin 2)))).trans square_inter

theorem square_len (e : square.Edge) : len e = 1 ∨ len e = √2 := by
  obtain ⟨K, i⟩ := e
  fin_cases K <;> fin_cases i <;> simp [len, segLen, src, tgt, square] <;> norm_num

theorem square_bounds : square.Bounds 1 (√2) 1 (√2) where
  hm0 := one_pos
  le := Real.one_le_sqrt.2 (by norm_num)
  δ0 := one_pos
  R0 := by positivity
  lo e := by
    rcases square_len e with h | h <;> rw [h]
    exact Real.one_le_sqrt.2 (by norm_num)
  hi e := by
    rcases square_len e with h | h <;> rw [h]
    exact Real.one_le_sqrt.2 (by norm_num)
  area K := by fin_cases K <;> simp [det, det2, square]
  disc K i := by
    rw [Real.sq_sqrt (by norm_num)]
    fin_cases K <;> fin_cases i <;> simp [square] <;> norm_num

end Tri
end Dxss
