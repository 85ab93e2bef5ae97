import Verif.Model.Regions
import Verif.Props.MeshGroups
import Mathlib.MeasureTheory.Integral.IntervalIntegral.Basic
import Mathlib.Analysis.SpecialFunctions.Integrals.Basic

/-!
# C81: the markers of the subdomains

The data domain `ω`, the target domain without the data domain `B ∖ ω`, and the rest carry the markers 1, 2, 3.
-/

namespace Dxss
open MeasureTheory Set

/-! ## Areas and moments of rectangles -/

theorem rectangle_measurable (x y dx dy : ℝ) : MeasurableSet (rectangle x y dx dy) :=
  measurableSet_Icc.prod measurableSet_Icc

theorem rectangle_volume {x y dx dy : ℝ} (hx : 0 ≤ dx) (hy : 0 ≤ dy) :
    volume (rectangle x y dx dy) = ENNReal.ofReal (dx * dy) := by
  rw [rectangle, Measure.volume_eq_prod, Measure.prod_prod, Real.volume_Icc, Real.volume_Icc, ENNReal.ofReal_mul hx]
  congr 2 <;> ring

theorem rectangle_int_fst {x y dx dy : ℝ} (hx : 0 ≤ dx) (hy : 0 ≤ dy) :
    ∫ z in rectangle x y dx dy, z.1 = dx * dy * (x + dx / 2) := by
  rw [rectangle, Measure.volume_eq_prod]
  have := setIntegral_prod_mul (μ := volume) (ν := volume) (fun a : ℝ => a) (fun _ : ℝ => (1 : ℝ)) (Icc x (x + dx))
    (Icc y (y + dy))
  simp only [mul_one] at this
  rw [this, integral_Icc_eq_integral_Ioc, ← intervalIntegral.integral_of_le (by linarith), integral_id]
  simp [hy]
  ring

theorem rectangle_int_snd {x y dx dy : ℝ} (hx : 0 ≤ dx) (hy : 0 ≤ dy) :
    ∫ z in rectangle x y dx dy, z.2 = dx * dy * (y + dy / 2) := by
  rw [rectangle, Measure.volume_eq_prod]
  have := setIntegral_prod_mul (μ := volume) (ν := volume) (fun _ : ℝ => (1 : ℝ)) (fun a : ℝ => a) (Icc x (x + dx))
    (Icc y (y + dy))
  simp only [one_mul] at this
  rw [this, integral_Icc_eq_integral_Ioc (x := y), ← intervalIntegral.integral_of_le (a := y) (by linarith), integral_id]
  simp [hx]
  ring

theorem rectangle_compact (x y dx dy : ℝ) : IsCompact (rectangle x y dx dy) := isCompact_Icc.prod isCompact_Icc

/-- The centre of a rectangle. -/
theorem centre_rectangle {x y dx dy : ℝ} (hx : 0 < dx) (hy : 0 < dy) :
    centreOfMass (rectangle x y dx dy) = (x + dx / 2, y + dy / 2, 0) := by
  have : dx * dy ≠ 0 := by positivity
  rw [centreOfMass, rectangle_int_fst hx.le hy.le, rectangle_int_snd hx.le hy.le, rectangle_volume hx.le hy.le,
    ENNReal.toReal_ofReal (by positivity), mul_div_cancel_left₀ _ this, mul_div_cancel_left₀ _ this]

/-- The centre of a rectangle with a rectangular hole. -/
theorem centre_diff {x y dx dy x' y' dx' dy' : ℝ} (hx : 0 < dx) (hy : 0 < dy) (hx' : 0 ≤ dx') (hy' : 0 ≤ dy')
    (hsub : rectangle x' y' dx' dy' ⊆ rectangle x y dx dy) :
    centreOfMass (rectangle x y dx dy \ rectangle x' y' dx' dy')
      = ((dx * dy * (x + dx / 2) - dx' * dy' * (x' + dx' / 2)) / (dx * dy - dx' * dy'),
         (dx * dy * (y + dy / 2) - dx' * dy' * (y' + dy' / 2)) / (dx * dy - dx' * dy'), 0) := by
  have hv : volume (rectangle x' y' dx' dy') ≠ ⊤ := by rw [rectangle_volume hx' hy']; exact ENNReal.ofReal_ne_top
  have hi1 : IntegrableOn (fun z : ℝ × ℝ => z.1) (rectangle x y dx dy) :=
    continuous_fst.continuousOn.integrableOn_compact (rectangle_compact _ _ _ _)
  have hi2 : IntegrableOn (fun z : ℝ × ℝ => z.2) (rectangle x y dx dy) :=
    continuous_snd.continuousOn.integrableOn_compact (rectangle_compact _ _ _ _)
  rw [centreOfMass, integral_diff (rectangle_measurable _ _ _ _) hi1 hsub,
    integral_diff (rectangle_measurable _ _ _ _) hi2 hsub, measure_diff hsub (rectangle_measurable _ _ _ _).nullMeasurableSet hv,
    rectangle_int_fst hx.le hy.le, rectangle_int_snd hx.le hy.le, rectangle_int_fst hx' hy', rectangle_int_snd hx' hy',
    rectangle_volume hx.le hy.le, rectangle_volume hx' hy', ENNReal.toReal_sub_of_le, ENNReal.toReal_ofReal (by positivity),
    ENNReal.toReal_ofReal (by positivity)]
  · rw [← rectangle_volume hx.le hy.le, ← rectangle_volume hx' hy']; exact measure_mono hsub
  · exact ENNReal.ofReal_ne_top

/-- The centre depends on the set up to null sets only. -/
theorem centre_congr {p q : Region} (h : p =ᵐ[volume] q) : centreOfMass p = centreOfMass q := by
  rw [centreOfMass, centreOfMass, setIntegral_congr_set h, setIntegral_congr_set h, measure_congr h]

/-! ## Pieces -/

theorem fragment_two {a b : Region} (h : Disjoint a b) (ha : volume a ≠ 0) (hb : volume b ≠ 0) : fragment [a, b] = [a, b] := by
  have e1 : a ∩ b = ∅ := h.inter_eq
  have e2 : a \ b = a := h.sdiff_eq_left
  have e3 : b \ a = b := h.sdiff_eq_right
  simp [fragment, fragmentStep, e1, e2, e3, ha, hb]

/-- Two sets touching in a null set, and one apart from both. -/
theorem fragment_three {a b c : Region} (h : Disjoint a b) (h' : Disjoint a c) (hn : volume (b ∩ c) = 0)
    (ha : volume a ≠ 0) (hb : volume (b \ c) ≠ 0) (hc : volume (c \ b) ≠ 0) : fragment [a, b, c] = [a, b \ c, c \ b] := by
  have e1 : a ∩ b = ∅ := h.inter_eq
  have e2 : a \ b = a := h.sdiff_eq_left
  have e3 : b \ a = b := h.sdiff_eq_right
  have e4 : a ∩ c = ∅ := h'.inter_eq
  have e5 : a \ c = a := h'.sdiff_eq_left
  have e6 : c \ a = c := h'.sdiff_eq_right
  simp [fragment, fragmentStep, e1, e2, e3, e4, e5, e6, hn, ha, hb, hc]

/-- Nested sets. -/
theorem fragment_nested {a b c : Region} (h : b ⊆ c) (h' : c ⊆ a) (hb : volume b ≠ 0) (hc : volume (c \ b) ≠ 0)
    (ha : volume (a \ c) ≠ 0) : fragment [a, b, c] = [b, c \ b, a \ c] := by
  have e1 : a ∩ b = b := inter_eq_right.2 (h.trans h')
  have e2 : b \ a = ∅ := sdiff_eq_bot_iff.2 (h.trans h')
  have e3 : b ∩ c = b := inter_eq_left.2 h
  have e4 : b \ c = ∅ := sdiff_eq_bot_iff.2 h
  have e5 : (a \ b) ∩ c = c \ b := by
    ext z; constructor
    · rintro ⟨⟨-, h2⟩, h3⟩; exact ⟨h3, h2⟩
    · rintro ⟨h2, h3⟩; exact ⟨⟨h' h2, h3⟩, h2⟩
  have e6 : (a \ b) \ c = a \ c := by
    ext z; constructor
    · rintro ⟨⟨h1, -⟩, h3⟩; exact ⟨h1, h3⟩
    · rintro ⟨h1, h3⟩; exact ⟨⟨h1, fun h2 => h3 (h h2)⟩, h3⟩
  have e7 : (c \ b) \ (a \ b) = ∅ := by
    ext z; constructor
    · rintro ⟨⟨h1, h2⟩, h3⟩; exact (h3 ⟨h' h1, h2⟩).elim
    · exact False.elim
  simp [fragment, fragmentStep, e1, e2, e3, e4, e5, e6, e7, ha, hb, hc]

theorem rectangle_pos {x y dx dy : ℝ} (hx : 0 < dx) (hy : 0 < dy) : volume (rectangle x y dx dy) ≠ 0 := by
  rw [rectangle_volume hx.le hy.le, Ne, ENNReal.ofReal_eq_zero, not_le]; positivity

/-- A rectangle without a smaller one has positive area. -/
theorem diff_pos {x y dx dy x' y' dx' dy' : ℝ} (hx : 0 ≤ dx) (hy : 0 ≤ dy) (hx' : 0 ≤ dx') (hy' : 0 ≤ dy')
    (hlt : dx' * dy' < dx * dy) : volume (rectangle x y dx dy \ rectangle x' y' dx' dy') ≠ 0 := by
  intro h
  have := measure_mono_ae (μ := volume) (ae_le_set.2 h)
  rw [rectangle_volume hx hy, rectangle_volume hx' hy', ENNReal.ofReal_le_ofReal_iff (by positivity)] at this
  linarith

/-! ## The property -/

/-- The part of the mesh whose surfaces belong to physical groups with marker `m`. -/
def markedRegion (mark : ℝ × ℝ × ℝ → ℕ) (surfaces : List Region) (m : ℕ) : Region :=
  {z | ∃ g ∈ surfaceGroups mark surfaces, g.dim = 2 ∧ g.marker = m ∧ ∃ i ∈ g.tags, ∃ p, (p, i) ∈ surfaces.zipIdx 1 ∧ z ∈ p}

theorem mem_markedRegion {mark : ℝ × ℝ × ℝ → ℕ} {surfaces : List Region} {m : ℕ} {z : ℝ × ℝ} :
    z ∈ markedRegion mark surfaces m ↔ ∃ p ∈ surfaces, mark (centreOfMass p) = m ∧ z ∈ p := by
  simp only [markedRegion, surfaceGroups, regionGroups, List.map_map, mem_setOf_eq, List.mem_map, Function.comp_apply,
    exists_exists_and_eq_and, List.mem_singleton]
  constructor
  · rintro ⟨⟨p, i⟩, hp, -, hm, j, hj, q, hq, hz⟩
    change j = i at hj
    subst hj
    have h1 := (List.mem_zipIdx hp).2.2
    have h2 := (List.mem_zipIdx hq).2.2
    obtain rfl : q = p := h2.trans h1.symm
    exact ⟨q, h1 ▸ List.getElem_mem _, hm, hz⟩
  · rintro ⟨p, hp, hm, hz⟩
    obtain ⟨i, hi, rfl⟩ := List.mem_iff_getElem.1 hp
    have : (surfaces[i], 1 + i) ∈ surfaces.zipIdx 1 := List.mem_zipIdx_iff_le_and_getElem?_sub.2 ⟨by omega, by simp [hi]⟩
    exact ⟨(surfaces[i], 1 + i), this, trivial, hm, _, rfl, _, this, hz⟩

/-- The subdomains of a builder: data domain, target domain outside it, rest. -/
structure Subdomains where
  omega : Region
  target : Region
  rest : Region

/-- The markers 1, 2, 3 denote the subdomains, up to null sets. -/
def Denotes (mark : ℝ × ℝ × ℝ → ℕ) (surfaces : List Region) (S : Subdomains) : Prop :=
  markedRegion mark surfaces 1 =ᵐ[volume] S.omega ∧ markedRegion mark surfaces 2 =ᵐ[volume] S.target ∧
    markedRegion mark surfaces 3 =ᵐ[volume] S.rest

/-- The subdomains of the convex geometry: the target domain `B` is the unit square below `y = 0.95` or outside
`0.1 ≤ x ≤ 0.9`, the data domain the part of the square outside `[0.1, 0.9] × [0.25, 1]`. -/
def convexDomains : Subdomains where
  omega := {z | 0 ≤ z.1 ∧ z.1 ≤ 1 ∧ 0 ≤ z.2 ∧ z.2 ≤ 1 ∧ ¬ (0.1 ≤ z.1 ∧ z.1 ≤ 0.9 ∧ 0.25 ≤ z.2)}
  target := {z | 0.1 ≤ z.1 ∧ z.1 ≤ 0.9 ∧ 0.25 ≤ z.2 ∧ z.2 ≤ 0.95}
  rest := {z | 0.1 ≤ z.1 ∧ z.1 ≤ 0.9 ∧ 0.95 ≤ z.2 ∧ z.2 ≤ 1}

/-- The subdomains of the non-convex geometry: `ω = [0.25, 0.75] × [0.05, 0.5]` inside `B = [0.125, 0.875] × [0.05, 0.95]`
inside the unit square. -/
def nonconvexDomains : Subdomains where
  omega := {z | 0.25 ≤ z.1 ∧ z.1 ≤ 0.75 ∧ 0.05 ≤ z.2 ∧ z.2 ≤ 0.5}
  target := {z | 0.125 ≤ z.1 ∧ z.1 ≤ 0.875 ∧ 0.05 ≤ z.2 ∧ z.2 ≤ 0.95 ∧
    ¬ (0.25 ≤ z.1 ∧ z.1 ≤ 0.75 ∧ 0.05 ≤ z.2 ∧ z.2 ≤ 0.5)}
  rest := {z | 0 ≤ z.1 ∧ z.1 ≤ 1 ∧ 0 ≤ z.2 ∧ z.2 ≤ 1 ∧ ¬ (0.125 ≤ z.1 ∧ z.1 ≤ 0.875 ∧ 0.05 ≤ z.2 ∧ z.2 ≤ 0.95)}

/-- The full C81. -/
def C81_statement : Prop :=
  Denotes markConvex convexSurfaces convexDomains ∧ Denotes markNonconvex nonconvexSurfaces nonconvexDomains

theorem mem_rectangle {x y dx dy : ℝ} {z : ℝ × ℝ} :
    z ∈ rectangle x y dx dy ↔ x ≤ z.1 ∧ z.1 ≤ x + dx ∧ y ≤ z.2 ∧ z.2 ≤ y + dy := by
  rw [rectangle, Set.mem_prod, mem_Icc, mem_Icc, and_assoc]

theorem rectangle_sub {x y dx dy x' y' dx' dy' : ℝ} (h1 : x ≤ x') (h2 : x' + dx' ≤ x + dx) (h3 : y ≤ y')
    (h4 : y' + dy' ≤ y + dy) : rectangle x' y' dx' dy' ⊆ rectangle x y dx dy :=
  prod_mono (Icc_subset_Icc h1 h2) (Icc_subset_Icc h3 h4)

/-! ### Convex geometry -/

theorem touch_null : volume (rectangle 0.1 0.25 0.8 0.7 ∩ rectangle 0.1 0.95 0.8 0.05) = 0 := by
  have : rectangle 0.1 0.25 0.8 0.7 ∩ rectangle 0.1 0.95 0.8 0.05 ⊆ rectangle 0.1 0.95 0.8 0 := by
    rintro z ⟨h1, h2⟩
    rw [mem_rectangle] at *
    norm_num at *
    exact ⟨h1.1, h1.2.1, h2.2.2.1, h1.2.2.2⟩
  refine measure_mono_null this ?_
  rw [rectangle_volume (by norm_num) le_rfl]
  simp

theorem convexSurfaces_eq : convexSurfaces = [rectangle 0 0 1 1 \ rectangle 0.1 0.25 0.8 0.75,
    rectangle 0.1 0.25 0.8 0.7 \ rectangle 0.1 0.95 0.8 0.05, rectangle 0.1 0.95 0.8 0.05 \ rectangle 0.1 0.25 0.8 0.7] := by
  have d1 : Disjoint (rectangle 0 0 1 1 \ rectangle 0.1 0.25 0.8 0.75) (rectangle 0.1 0.25 0.8 0.7) :=
    disjoint_sdiff_left.mono_right (rectangle_sub (by norm_num) (by norm_num) (by norm_num) (by norm_num))
  have d2 : Disjoint (rectangle 0 0 1 1 \ rectangle 0.1 0.25 0.8 0.75) (rectangle 0.1 0.95 0.8 0.05) :=
    disjoint_sdiff_left.mono_right (rectangle_sub (by norm_num) (by norm_num) (by norm_num) (by norm_num))
  have v1 : volume (rectangle 0 0 1 1 \ rectangle 0.1 0.25 0.8 0.75) ≠ 0 :=
    diff_pos (by norm_num) (by norm_num) (by norm_num) (by norm_num) (by norm_num)
  change fragment (fragment [_, _] ++ [_]) = _
  unfold cutRegion
  rw [fragment_two d1 v1 (rectangle_pos (by norm_num) (by norm_num))]
  refine fragment_three d1 d2 touch_null v1 (diff_pos (by norm_num) (by norm_num) (by norm_num) (by norm_num) (by norm_num)) ?_
  intro h
  have := rectangle_pos (x := 0.1) (y := 0.95) (dx := 0.8) (dy := 0.05) (by norm_num) (by norm_num)
  rw [← measure_inter_add_diff₀ (rectangle 0.1 0.95 0.8 0.05) (rectangle_measurable 0.1 0.25 0.8 0.7).nullMeasurableSet, h,
    inter_comm, touch_null] at this
  simp at this

theorem diff_ae {a b : Region} (h : volume (a ∩ b) = 0) : (a \ b : Region) =ᵐ[volume] a := by
  rw [← diff_self_inter]
  exact diff_null_ae_eq_self h

theorem mark_convex_omega : markConvex (centreOfMass (rectangle 0 0 1 1 \ rectangle 0.1 0.25 0.8 0.75)) = 1 := by
  rw [centre_diff (by norm_num) (by norm_num) (by norm_num) (by norm_num)
    (rectangle_sub (by norm_num) (by norm_num) (by norm_num) (by norm_num))]
  norm_num [markConvex, allclose3, isclose, abs_le]

theorem mark_convex_target :
    markConvex (centreOfMass (rectangle 0.1 0.25 0.8 0.7 \ rectangle 0.1 0.95 0.8 0.05)) = 2 := by
  rw [centre_congr (diff_ae touch_null), centre_rectangle (by norm_num) (by norm_num)]
  norm_num [markConvex, allclose3, isclose, abs_le]

theorem mark_convex_rest :
    markConvex (centreOfMass (rectangle 0.1 0.95 0.8 0.05 \ rectangle 0.1 0.25 0.8 0.7)) = 3 := by
  rw [centre_congr (diff_ae (by rw [inter_comm]; exact touch_null)), centre_rectangle (by norm_num) (by norm_num)]
  norm_num [markConvex, allclose3, isclose, abs_le]

/-- C81 for `create_initial_mesh_convex`, `get_mesh_convex` and `get_mesh_hierarchy`. -/
theorem C81_convex_partial : Denotes markConvex convexSurfaces convexDomains := by
  have m1 := mark_convex_omega
  have m2 := mark_convex_target
  have m3 := mark_convex_rest
  refine ⟨?_, ?_, ?_⟩
  · refine Filter.EventuallyEq.of_eq (Set.ext fun z => ?_)
    rw [mem_markedRegion, convexSurfaces_eq]
    simp only [List.mem_cons, List.not_mem_nil, or_false, exists_eq_or_imp, exists_eq_left, m1, m2, m3]
    norm_num [mem_rectangle, convexDomains]
    constructor
    · rintro ⟨⟨h1, h2, h3, h4⟩, h5⟩
      exact ⟨h1, h2, h3, h4, fun a b => not_le.1 fun c => absurd (h5 a b c) (not_lt.2 h4)⟩
    · rintro ⟨h1, h2, h3, h4, h5⟩
      exact ⟨⟨h1, h2, h3, h4⟩, fun a b c => absurd (h5 a b) (not_lt.2 c)⟩
  · have e : markedRegion markConvex convexSurfaces 2 = rectangle 0.1 0.25 0.8 0.7 \ rectangle 0.1 0.95 0.8 0.05 := by
      ext z
      rw [mem_markedRegion, convexSurfaces_eq]
      simp only [List.mem_cons, List.not_mem_nil, or_false, exists_eq_or_imp, exists_eq_left, m1, m2, m3]
      norm_num
    have e' : convexDomains.target = rectangle 0.1 0.25 0.8 0.7 := by
      ext z; norm_num [mem_rectangle, convexDomains]
    rw [e, e']
    exact diff_ae touch_null
  · have e : markedRegion markConvex convexSurfaces 3 = rectangle 0.1 0.95 0.8 0.05 \ rectangle 0.1 0.25 0.8 0.7 := by
      ext z
      rw [mem_markedRegion, convexSurfaces_eq]
      simp only [List.mem_cons, List.not_mem_nil, or_false, exists_eq_or_imp, exists_eq_left, m1, m2, m3]
      norm_num
    have e' : convexDomains.rest = rectangle 0.1 0.95 0.8 0.05 := by
      ext z; norm_num [mem_rectangle, convexDomains]
    rw [e, e']
    exact diff_ae (by rw [inter_comm]; exact touch_null)

/-! ### Non-convex geometry -/

theorem nonconvexSurfaces_eq : nonconvexSurfaces = [rectangle 0.25 0.05 0.5 0.45,
    rectangle 0.125 0.05 0.75 0.9 \ rectangle 0.25 0.05 0.5 0.45, rectangle 0 0 1 1 \ rectangle 0.125 0.05 0.75 0.9] :=
  fragment_nested (rectangle_sub (by norm_num) (by norm_num) (by norm_num) (by norm_num))
    (rectangle_sub (by norm_num) (by norm_num) (by norm_num) (by norm_num)) (rectangle_pos (by norm_num) (by norm_num))
    (diff_pos (by norm_num) (by norm_num) (by norm_num) (by norm_num) (by norm_num))
    (diff_pos (by norm_num) (by norm_num) (by norm_num) (by norm_num) (by norm_num))

theorem mark_nonconvex_omega : markNonconvex (centreOfMass (rectangle 0.25 0.05 0.5 0.45)) = 1 := by
  rw [centre_rectangle (by norm_num) (by norm_num)]
  norm_num [markNonconvex, allclose3, isclose, abs_le]

/-- The centre of mass of `B ∖ ω` is `(0.5, 0.6125)`. -/
theorem mark_nonconvex_target :
    markNonconvex (centreOfMass (rectangle 0.125 0.05 0.75 0.9 \ rectangle 0.25 0.05 0.5 0.45)) = 3 := by
  rw [centre_diff (by norm_num) (by norm_num) (by norm_num) (by norm_num)
    (rectangle_sub (by norm_num) (by norm_num) (by norm_num) (by norm_num))]
  norm_num [markNonconvex, allclose3, isclose, abs_le]

/-- The centre of mass of the rest is `(0.5, 0.5)`. -/
theorem mark_nonconvex_rest :
    markNonconvex (centreOfMass (rectangle 0 0 1 1 \ rectangle 0.125 0.05 0.75 0.9)) = 2 := by
  rw [centre_diff (by norm_num) (by norm_num) (by norm_num) (by norm_num)
    (rectangle_sub (by norm_num) (by norm_num) (by norm_num) (by norm_num))]
  norm_num [markNonconvex, allclose3, isclose, abs_le]

/-- C81 for `get_mesh_hierarchy_nonconvex`: the data domain has marker 1, but the markers of the target domain and of the
rest are exchanged. -/
theorem C81_nonconvex_exchanged : Denotes markNonconvex nonconvexSurfaces
    ⟨nonconvexDomains.omega, nonconvexDomains.rest, nonconvexDomains.target⟩ := by
  have m1 := mark_nonconvex_omega
  have m2 := mark_nonconvex_target
  have m3 := mark_nonconvex_rest
  refine ⟨?_, ?_, ?_⟩ <;>
  · refine Filter.EventuallyEq.of_eq (Set.ext fun z => ?_)
    rw [mem_markedRegion, nonconvexSurfaces_eq]
    simp only [List.mem_cons, List.not_mem_nil, or_false, exists_eq_or_imp, exists_eq_left, m1, m2, m3]
    norm_num [mem_rectangle, nonconvexDomains]
    try tauto

/-- C81 is violated. -/
theorem C81_violated : ¬ C81_statement := by
  rintro ⟨-, -, h, -⟩
  have h' := h.symm.trans C81_nonconvex_exchanged.2.1
  have e1 : nonconvexDomains.target = rectangle 0.125 0.05 0.75 0.9 \ rectangle 0.25 0.05 0.5 0.45 := by
    ext z; norm_num [mem_rectangle, nonconvexDomains]; tauto
  have e2 : nonconvexDomains.rest = rectangle 0 0 1 1 \ rectangle 0.125 0.05 0.75 0.9 := by
    ext z; norm_num [mem_rectangle, nonconvexDomains]; tauto
  have h0 : volume (nonconvexDomains.target \ nonconvexDomains.rest) = 0 := ae_le_set.1 h'.le
  have e3 : nonconvexDomains.target \ nonconvexDomains.rest = nonconvexDomains.target := by
    rw [sdiff_eq_left, e1, e2]
    exact (disjoint_sdiff_right (s := rectangle 0.125 0.05 0.75 0.9)).mono_left sdiff_subset
  rw [e3, e1] at h0
  exact diff_pos (by norm_num) (by norm_num) (by norm_num) (by norm_num) (by norm_num) h0

end Dxss
