import Verif.Model.Grid
import Verif.Lemmas.Interval
import Mathlib.MeasureTheory.Integral.Pi
import Mathlib.MeasureTheory.Integral.Prod
import Mathlib.MeasureTheory.Measure.OpenPos
import Mathlib.MeasureTheory.Integral.IntervalIntegral.DerivIntegrable

/-! # Functions on a grid: definiteness, integration along lines, control of multilinear functions -/

namespace Dxss
open Finset MeasureTheory

namespace AnaD
variable {d n : ℕ}

theorem int_self_nonneg (lo hi : Fin d → ℝ) (f : (Fin d → ℝ) → ℝ) : 0 ≤ ∫ y in Set.Icc lo hi, f y * f y :=
  integral_nonneg fun _ => mul_self_nonneg _

/-- An analytic function with zero mean square on a box vanishes. -/
theorem eq_zero {lo hi : Fin d → ℝ} (hlt : ∀ a, lo a < hi a) {f : AnaD d} (h : ∫ y in Set.Icc lo hi, f.1 y * f.1 y = 0) : f = 0 := by
  have hc : Continuous fun y => f.1 y * f.1 y := (cont f).mul (cont f)
  have h1 := (setIntegral_eq_zero_iff_of_nonneg_ae (Filter.Eventually.of_forall fun _ => mul_self_nonneg _) (intOn hc lo hi)).1 h
  have hI : (Set.univ.pi fun a => Set.Ioo (lo a) (hi a)) ⊆ Set.Icc lo hi := fun y hy =>
    ⟨fun a => (hy a trivial).1.le, fun a => (hy a trivial).2.le⟩
  have hU : IsOpen (Set.univ.pi fun a => Set.Ioo (lo a) (hi a)) := isOpen_set_pi Set.finite_univ fun a _ => isOpen_Ioo
  have h2 : Set.EqOn (fun y => f.1 y * f.1 y) 0 (Set.univ.pi fun a => Set.Ioo (lo a) (hi a)) :=
    Measure.eqOn_open_of_ae_eq (ae_restrict_of_ae_restrict_of_subset hI h1) hU hc.continuousOn continuousOn_const
  refine Subtype.ext ?_
  refine (ana f).eq_of_eventuallyEq (g := fun _ => (0:ℝ)) (z₀ := fun a => (lo a + hi a) / 2) analyticOnNhd_const ?_
  have hm : (fun a => (lo a + hi a) / 2) ∈ Set.univ.pi fun a => Set.Ioo (lo a) (hi a) := fun a _ => by
    have := hlt a
    exact ⟨by linarith, by linarith⟩
  filter_upwards [hU.mem_nhds hm] with y hy
  exact mul_self_eq_zero.1 (h2 hy)

theorem insert_cont (a : Fin (n + 1)) : Continuous fun p : ℝ × (Fin n → ℝ) => (a.insertNth p.1 p.2 : Fin (n + 1) → ℝ) :=
  continuous_pi fun i => by
    rcases Fin.eq_self_or_eq_succAbove a i with rfl | ⟨j, rfl⟩
    · simpa using continuous_fst
    · simp only [Fin.insertNth_apply_succAbove]
      exact (continuous_apply j).comp continuous_snd

/-- Integration over a box along the lines parallel to axis `a`. -/
theorem int_lines (a : Fin (n + 1)) {lo hi : Fin (n + 1) → ℝ} (hle : lo a ≤ hi a) {f : (Fin (n + 1) → ℝ) → ℝ} (hf : Continuous f) :
    ∫ x in Set.Icc lo hi, f x
      = ∫ y in Set.Icc (a.removeNth lo) (a.removeNth hi), ∫ s in (lo a)..(hi a), f (a.insertNth s y) := by
  have hpre := (volume_preserving_piFinSuccAbove (fun _ : Fin (n + 1) => ℝ) a).symm _
  have hset : (MeasurableEquiv.piFinSuccAbove (fun _ : Fin (n + 1) => ℝ) a).symm ⁻¹' Set.Icc lo hi
      = Set.Icc (lo a) (hi a) ×ˢ Set.Icc (a.removeNth lo) (a.removeNth hi) := by
    ext ⟨s, y⟩
    change lo ≤ (a.insertNth s y : Fin (n + 1) → ℝ) ∧ (a.insertNth s y : Fin (n + 1) → ℝ) ≤ hi ↔
      (lo a ≤ s ∧ s ≤ hi a) ∧ a.removeNth lo ≤ y ∧ y ≤ a.removeNth hi
    rw [Fin.le_insertNth_iff, Fin.insertNth_le_iff]
    exact ⟨fun h => ⟨⟨h.1.1, h.2.1⟩, h.1.2, h.2.2⟩, fun h => ⟨⟨h.1.1, h.2.1⟩, h.1.2, h.2.2⟩⟩
  rw [← hpre.setIntegral_preimage_emb (MeasurableEquiv.measurableEmbedding _), hset]
  have hg : Continuous fun p : ℝ × (Fin n → ℝ) => f (a.insertNth p.1 p.2) := hf.comp (insert_cont a)
  have e : (fun p => f ((MeasurableEquiv.piFinSuccAbove (fun _ : Fin (n + 1) => ℝ) a).symm p))
      = fun p : ℝ × (Fin n → ℝ) => f (a.insertNth p.1 p.2) := by
    funext p
    simp [MeasurableEquiv.piFinSuccAbove_symm_apply, Fin.insertNthEquiv]
  have hi' : IntegrableOn (fun p : ℝ × (Fin n → ℝ) => f (a.insertNth p.1 p.2))
      (Set.Icc (lo a) (hi a) ×ˢ Set.Icc (a.removeNth lo) (a.removeNth hi)) (volume.prod volume) :=
    hg.continuousOn.integrableOn_compact (isCompact_Icc.prod isCompact_Icc)
  rw [e]
  change ∫ p in _, _ ∂(volume.prod volume) = _
  rw [← setIntegral_prod_swap]
  refine (setIntegral_prod _ hi'.swap).trans ?_
  refine integral_congr_ae (Filter.Eventually.of_forall fun y => ?_)
  change ∫ s in Set.Icc (lo a) (hi a), f (a.insertNth s y) = ∫ s in (lo a)..(hi a), f (a.insertNth s y)
  rw [intervalIntegral.integral_of_le hle, integral_Icc_eq_integral_Ioc]

theorem line_ana (a : Fin (n + 1)) (y : Fin n → ℝ) :
    AnalyticOnNhd ℝ (fun s : ℝ => (a.insertNth s y : Fin (n + 1) → ℝ)) Set.univ := by
  refine AnalyticOnNhd.pi fun i => ?_
  rcases Fin.eq_self_or_eq_succAbove a i with rfl | ⟨j, rfl⟩
  · simpa using (analyticOnNhd_id : AnalyticOnNhd ℝ (id : ℝ → ℝ) Set.univ)
  · simpa using (analyticOnNhd_const : AnalyticOnNhd ℝ (fun _ : ℝ => y j) Set.univ)

/-- The restriction to the line parallel to axis `a` through `y`. -/
noncomputable def line (a : Fin (n + 1)) (y : Fin n → ℝ) : AnaD (n + 1) →ₗ[ℝ] Ana where
  toFun f := ⟨fun s => f.1 (a.insertNth s y), mem_ana ((ana f).comp (line_ana a y) fun _ _ => trivial)⟩
  map_add' _ _ := rfl
  map_smul' _ _ := rfl

theorem line_deriv (a : Fin (n + 1)) (y : Fin n → ℝ) (f : AnaD (n + 1)) (s : ℝ) :
    deriv (line a y f).1 s = (pd a f).1 (a.insertNth s y) := by
  have h1 : HasDerivAt (fun s : ℝ => (a.insertNth s y : Fin (n + 1) → ℝ)) (Pi.single a 1) s := by
    refine hasDerivAt_pi.2 fun i => ?_
    rcases Fin.eq_self_or_eq_succAbove a i with rfl | ⟨j, rfl⟩
    · simp only [Fin.insertNth_apply_same, Pi.single_eq_same]
      exact hasDerivAt_id' s
    · simpa [Pi.single_apply, Fin.succAbove_ne] using hasDerivAt_const s (y j)
  exact ((diff f _).hasFDerivAt.comp_hasDerivAt s h1).deriv

end AnaD

namespace Grid
variable {n : ℕ} (m : Grid n)

theorem lo_lt_hi (I : m.Cell) (a : Fin (n + 1)) : lo I a < hi I a := (m.axis a).lt _ (I a).2

theorem diam_pos (I : m.Cell) : 0 < diam I :=
  Real.sqrt_pos.2 (sum_pos (fun a _ => pow_pos ((m.axis a).h_pos (I a).2) 2) ⟨0, mem_univ _⟩)

theorem faceInt_self_nonneg (a : Fin (n + 1)) (s : ℝ) (I : m.Cell) (f : (Fin (n + 1) → ℝ) → ℝ) : 0 ≤ m.faceInt a s I f f :=
  integral_nonneg fun _ => mul_self_nonneg _

/-- The function has no negative values. -/
def Nonneg (e : m.Broken) : Prop := ∀ I, ∀ y ∈ Set.Icc (lo I) (hi I), 0 ≤ (e I).1 y

theorem pen_term_nonneg (v : m.Broken) (a : Fin (n + 1)) (I : m.Cell) :
    0 ≤ (if (I a).1 + 1 = (m.axis a).n then 1 / diam I * m.faceInt a (hi I a) I (v I).1 (v I).1 else 0)
      + (if (I a).1 = 0 then 1 / diam I * m.faceInt a (lo I a) I (v I).1 (v I).1 else 0) := by
  have h := m.diam_pos I
  refine add_nonneg ?_ ?_ <;> split
  · exact mul_nonneg (by positivity) (m.faceInt_self_nonneg _ _ _ _)
  · exact le_rfl
  · exact mul_nonneg (by positivity) (m.faceInt_self_nonneg _ _ _ _)
  · exact le_rfl

theorem ghost_term_nonneg (v : m.Broken) (a : Fin (n + 1)) (I : m.Cell) :
    0 ≤ if h : (I a).1 + 1 < (m.axis a).n then 1 / 2 * (diam I + diam (next a I h)) *
      ∑ b, m.faceInt a (hi I a) I (m.jump a I h b v).1 (m.jump a I h b v).1 else 0 := by
  split
  · rename_i h
    have := m.diam_pos I; have := m.diam_pos (next a I h)
    exact mul_nonneg (by positivity) (sum_nonneg fun b _ => m.faceInt_self_nonneg _ _ _ _)
  · exact le_rfl

/-- The forms are non-negative, for an indicator function with non-negative values. -/
theorem space_psd {e : m.Broken} (he : m.Nonneg e) : m.space.Psd e where
  mass v := by rw [space_mass]; exact sum_nonneg fun I _ => AnaD.int_self_nonneg _ _ _
  stiff v := by rw [space_stiff]; exact sum_nonneg fun I _ => sum_nonneg fun b _ => AnaD.int_self_nonneg _ _ _
  pen v := by rw [space_pen]; exact sum_nonneg fun a _ => sum_nonneg fun I _ => m.pen_term_nonneg v a I
  ghost v := by rw [space_ghost]; exact sum_nonneg fun a _ => sum_nonneg fun I _ => m.ghost_term_nonneg v a I
  h2 v := by rw [space_h2]; exact sum_nonneg fun I _ => mul_nonneg (sq_nonneg _) (AnaD.int_self_nonneg _ _ _)
  omega v := by
    rw [space_omega]
    refine sum_nonneg fun I _ => setIntegral_nonneg measurableSet_Icc fun y hy => ?_
    rw [mul_assoc]
    exact mul_nonneg (he I y hy) (mul_self_nonneg _)

/-- The forms are definite. -/
theorem space_definite : m.space.Definite where
  mass v h := by
    rw [space_mass, sum_eq_zero_iff_of_nonneg fun I _ => AnaD.int_self_nonneg _ _ _] at h
    exact funext fun I => AnaD.eq_zero (m.lo_lt_hi I) (h I (mem_univ _))
  h2 v h := by
    rw [space_h2, sum_eq_zero_iff_of_nonneg fun I _ => mul_nonneg (sq_nonneg _) (AnaD.int_self_nonneg _ _ _)] at h
    exact funext fun I => AnaD.eq_zero (m.lo_lt_hi I)
      ((mul_eq_zero.1 (h I (mem_univ _))).resolve_left (pow_ne_zero _ (m.diam_pos I).ne'))

/-! ### Lines of cells -/

/-- The positions, on the axes other than `a`, of a line of cells parallel to axis `a`. -/
abbrev Line (a : Fin (n + 1)) := (b : Fin n) → Fin (m.axis (a.succAbove b)).n

variable {m}

/-- Cell `i` of a line. -/
def Line.cell {a : Fin (n + 1)} (J : m.Line a) (i : Fin (m.axis a).n) : m.Cell := a.insertNth (α := fun a => Fin (m.axis a).n) i J

/-- The facets along a line. -/
def Line.box {a : Fin (n + 1)} (J : m.Line a) : Set (Fin n → ℝ) :=
  Set.Icc (fun b => (m.axis (a.succAbove b)).x (J b)) (fun b => (m.axis (a.succAbove b)).x (J b + 1))

/-- A function on a line. -/
noncomputable def Line.fn {a : Fin (n + 1)} (J : m.Line a) (y : Fin n → ℝ) (v : m.Broken) : (m.axis a).Broken :=
  fun i => AnaD.line a y (v (J.cell i))

section
variable {a : Fin (n + 1)} (J : m.Line a) (i : Fin (m.axis a).n)

theorem Line.cell_same : J.cell i a = i := Fin.insertNth_apply_same _ _ _
theorem Line.cell_succ (b : Fin n) : J.cell i (a.succAbove b) = J b := Fin.insertNth_apply_succAbove _ _ _ _

theorem Line.lo_same : lo (J.cell i) a = (m.axis a).x i := by rw [lo, J.cell_same]
theorem Line.hi_same : hi (J.cell i) a = (m.axis a).x (i + 1) := by rw [hi, J.cell_same]

theorem Line.box_eq : Set.Icc (a.removeNth (lo (J.cell i))) (a.removeNth (hi (J.cell i))) = J.box := by
  have h1 : a.removeNth (lo (J.cell i)) = fun b => (m.axis (a.succAbove b)).x (J b) :=
    funext fun b => by rw [Fin.removeNth, lo, J.cell_succ]
  have h2 : a.removeNth (hi (J.cell i)) = fun b => (m.axis (a.succAbove b)).x (J b + 1) :=
    funext fun b => by rw [Fin.removeNth, hi, J.cell_succ]
  rw [h1, h2, Line.box]

theorem Line.next_cell (h : (J.cell i a).1 + 1 < (m.axis a).n) :
    next a (J.cell i) h = J.cell ⟨i + 1, by rwa [J.cell_same] at h⟩ := by
  have e : (⟨J.cell i a + 1, h⟩ : Fin (m.axis a).n) = ⟨i + 1, by rwa [J.cell_same] at h⟩ := by
    apply Fin.ext
    change (J.cell i a).1 + 1 = i + 1
    rw [J.cell_same]
  rw [next, e]
  exact Fin.update_insertNth (α := fun a => Fin (m.axis a).n) a i _ J
end

variable (m)

theorem sum_cells (a : Fin (n + 1)) (F : m.Cell → ℝ) : ∑ I, F I = ∑ J : m.Line a, ∑ i, F (J.cell i) := by
  rw [sum_comm, ← (Fin.insertNthEquiv (fun a => Fin (m.axis a).n) a).sum_comp, Fintype.sum_prod_type]
  rfl

theorem box_compact {a : Fin (n + 1)} (J : m.Line a) : IsCompact J.box := isCompact_Icc

theorem box_int {a : Fin (n + 1)} (J : m.Line a) {f : (Fin n → ℝ) → ℝ} (hf : Continuous f) : IntegrableOn f J.box := AnaD.intOn hf _ _

theorem faceInt_line {a : Fin (n + 1)} (J : m.Line a) (i : Fin (m.axis a).n) (s : ℝ) (f g : AnaD (n + 1)) :
    m.faceInt a s (J.cell i) f.1 g.1 = ∫ y in J.box, (AnaD.line a y f).1 s * (AnaD.line a y g).1 s := by
  rw [faceInt, J.box_eq]; rfl

theorem line_cont {a : Fin (n + 1)} (f : AnaD (n + 1)) : Continuous fun p : (Fin n → ℝ) × ℝ => (AnaD.line a p.1 f).1 p.2 :=
  (AnaD.cont f).comp ((AnaD.insert_cont a).comp (continuous_snd.prodMk continuous_fst))

theorem line_cont' {a : Fin (n + 1)} (f : AnaD (n + 1)) (s : ℝ) : Continuous fun y : Fin n → ℝ => (AnaD.line a y f).1 s :=
  (line_cont f).comp (continuous_id.prodMk continuous_const)

theorem line_mass_cont {a : Fin (n + 1)} (f g : AnaD (n + 1)) (s t : ℝ) :
    Continuous fun y : Fin n → ℝ => ∫ r in s..t, (AnaD.line a y f).1 r * (AnaD.line a y g).1 r :=
  intervalIntegral.continuous_parametric_intervalIntegral_of_continuous' ((line_cont f).mul (line_cont g)) _ _

theorem line_mass {a : Fin (n + 1)} (J : m.Line a) (y : Fin n → ℝ) (u v : m.Broken) :
    (m.axis a).space.mass (J.fn y u) (J.fn y v)
      = ∑ i : Fin (m.axis a).n, ∫ s in ((m.axis a).x i)..((m.axis a).x (i + 1)), (AnaD.line a y (u (J.cell i))).1 s * (AnaD.line a y (v (J.cell i))).1 s := by
  rw [Mesh1.space_mass, ← Fin.sum_univ_eq_sum_range (fun i => ∫ s in ((m.axis a).x i)..((m.axis a).x (i + 1)),
    ((m.axis a).cell i (J.fn y u)).1 s * ((m.axis a).cell i (J.fn y v)).1 s)]
  refine sum_congr rfl fun i _ => ?_
  rw [(m.axis a).cell_apply i.2, (m.axis a).cell_apply i.2]; rfl

/-- The scalar product, integrated along lines. -/
theorem mass_lines (a : Fin (n + 1)) (u v : m.Broken) :
    m.space.mass u v = ∑ J : m.Line a, ∫ y in J.box, (m.axis a).space.mass (J.fn y u) (J.fn y v) := by
  rw [space_mass, m.sum_cells a]
  refine sum_congr rfl fun J _ => ?_
  simp only [m.line_mass]
  rw [integral_finsetSum _ fun i _ => m.box_int J (line_mass_cont _ _ _ _)]
  refine sum_congr rfl fun i _ => ?_
  refine (AnaD.int_lines a (m.lo_lt_hi (J.cell i) a).le ((AnaD.cont _).mul (AnaD.cont _))).trans ?_
  rw [J.box_eq, J.lo_same, J.hi_same]
  rfl

/-! ### Control of multilinear functions -/

/-- Continuous, and on each cell polynomial of degree at most `k` in each coordinate: the space of `("CG", k)` on a grid. -/
def lagrange (k : ℕ) : Submodule ℝ m.Broken where
  carrier := {v | (∀ (I : m.Cell) (a : Fin (n + 1)) (y : Fin n → ℝ), ∃ p : Polynomial ℝ, p.natDegree ≤ k ∧ ∀ s, (v I).1 (a.insertNth s y) = p.eval s) ∧
    ∀ (I : m.Cell) (a : Fin (n + 1)) (h : (I a).1 + 1 < (m.axis a).n), ∀ y ∈ Set.Icc (a.removeNth (lo I)) (a.removeNth (hi I)),
      (v I).1 (a.insertNth (hi I a) y) = (v (next a I h)).1 (a.insertNth (hi I a) y)}
  add_mem' {u v} hu hv := by
    refine ⟨fun I a y => ?_, fun I a h y hy => congrArg₂ (· + ·) (hu.2 I a h y hy) (hv.2 I a h y hy)⟩
    obtain ⟨p, hp, ep⟩ := hu.1 I a y
    obtain ⟨r, hr, er⟩ := hv.1 I a y
    refine ⟨p + r, (Polynomial.natDegree_add_le _ _).trans (max_le hp hr), fun s => ?_⟩
    rw [Polynomial.eval_add, ← ep, ← er]; rfl
  zero_mem' := ⟨fun I a y => ⟨0, by simp, fun s => by simp⟩, fun I a h y hy => rfl⟩
  smul_mem' c u hu := by
    refine ⟨fun I a y => ?_, fun I a h y hy => congrArg (c * ·) (hu.2 I a h y hy)⟩
    obtain ⟨p, hp, ep⟩ := hu.1 I a y
    refine ⟨Polynomial.C c * p, (Polynomial.natDegree_C_mul_le _ _).trans hp, fun s => ?_⟩
    rw [Polynomial.eval_mul, Polynomial.eval_C, ← ep]; rfl

theorem mem_lagrange {k : ℕ} {v : m.Broken} : v ∈ m.lagrange k ↔
    (∀ (I : m.Cell) (a : Fin (n + 1)) (y : Fin n → ℝ), ∃ p : Polynomial ℝ, p.natDegree ≤ k ∧ ∀ s, (v I).1 (a.insertNth s y) = p.eval s) ∧
    ∀ (I : m.Cell) (a : Fin (n + 1)) (h : (I a).1 + 1 < (m.axis a).n), ∀ y ∈ Set.Icc (a.removeNth (lo I)) (a.removeNth (hi I)),
      (v I).1 (a.insertNth (hi I a) y) = (v (next a I h)).1 (a.insertNth (hi I a) y) := Iff.rfl

theorem line_lagrange {k : ℕ} {v : m.Broken} (hv : v ∈ m.lagrange k) {a : Fin (n + 1)} (J : m.Line a) {y : Fin n → ℝ} (hy : y ∈ J.box) :
    J.fn y v ∈ (m.axis a).lagrange k := by
  refine (m.axis a).mem_lagrange.2 ⟨fun i hi => ?_, fun i hi => ?_⟩
  · obtain ⟨p, hp, e⟩ := hv.1 (J.cell ⟨i, hi⟩) a y
    exact ⟨p, hp, fun s => by rw [(m.axis a).cell_apply hi]; exact e s⟩
  · rw [(m.axis a).cell_apply (show i < _ by omega), (m.axis a).cell_apply hi]
    have h : (J.cell ⟨i, by omega⟩ a).1 + 1 < (m.axis a).n := by rw [J.cell_same]; exact hi
    have := hv.2 (J.cell ⟨i, by omega⟩) a h y (by rw [J.box_eq]; exact hy)
    rw [J.next_cell, J.hi_same] at this
    exact this

theorem last_lt (a : Fin (n + 1)) : (m.axis a).n - 1 < (m.axis a).n := by have := (m.axis a).pos; omega

variable {m} in
/-- The squares of the boundary values of a line. -/
noncomputable def Line.ends {a : Fin (n + 1)} (J : m.Line a) (v : m.Broken) (y : Fin n → ℝ) : ℝ :=
  ((m.axis a).cell 0 (J.fn y v)).1 ((m.axis a).x 0) ^ 2
    + ((m.axis a).cell ((m.axis a).n - 1) (J.fn y v)).1 ((m.axis a).x (m.axis a).n) ^ 2

variable {m} in
/-- The squares of the jumps of the derivative along a line. -/
noncomputable def Line.jumps {a : Fin (n + 1)} (J : m.Line a) (v : m.Broken) (y : Fin n → ℝ) : ℝ :=
  ∑ l ∈ range ((m.axis a).n - 1), (m.axis a).jumpGrad l (J.fn y v) ^ 2

theorem ends_eq {a : Fin (n + 1)} (J : m.Line a) (v : m.Broken) (y : Fin n → ℝ) :
    J.ends v y = (AnaD.line a y (v (J.cell ⟨0, (m.axis a).pos⟩))).1 ((m.axis a).x 0)
          * (AnaD.line a y (v (J.cell ⟨0, (m.axis a).pos⟩))).1 ((m.axis a).x 0)
      + (AnaD.line a y (v (J.cell ⟨_, m.last_lt a⟩))).1 ((m.axis a).x (m.axis a).n)
          * (AnaD.line a y (v (J.cell ⟨_, m.last_lt a⟩))).1 ((m.axis a).x (m.axis a).n) := by
  rw [Line.ends, (m.axis a).cell_apply (m.axis a).pos, (m.axis a).cell_apply (m.last_lt a), sq, sq]; rfl

theorem ends_cont {a : Fin (n + 1)} (J : m.Line a) (v : m.Broken) : Continuous (J.ends v) := by
  rw [funext (m.ends_eq J v)]
  exact ((line_cont' _ _).mul (line_cont' _ _)).add ((line_cont' _ _).mul (line_cont' _ _))

theorem sum_range_pred {k : ℕ} (hk : 0 < k) (G : ℕ → ℝ) : ∑ l ∈ range (k - 1), G l = ∑ l ∈ range k, if l + 1 < k then G l else 0 := by
  obtain ⟨k, rfl⟩ : ∃ j, k = j + 1 := ⟨k - 1, by omega⟩
  rw [sum_range_succ, if_neg (by omega), add_zero]
  exact sum_congr rfl fun l hl => (if_pos (by have := mem_range.1 hl; omega)).symm

theorem line_sq_int {a : Fin (n + 1)} (J : m.Line a) (f : AnaD (n + 1)) (s : ℝ) :
    IntegrableOn (fun y => (AnaD.line a y f).1 s * (AnaD.line a y f).1 s) J.box :=
  m.box_int J ((line_cont' _ _).mul (line_cont' _ _))

theorem jumps_eq {a : Fin (n + 1)} (J : m.Line a) (v : m.Broken) (y : Fin n → ℝ) :
    J.jumps v y = ∑ i : Fin (m.axis a).n, if h : (J.cell i a).1 + 1 < (m.axis a).n then
      (AnaD.line a y (m.jump a (J.cell i) h a v)).1 (hi (J.cell i) a) * (AnaD.line a y (m.jump a (J.cell i) h a v)).1 (hi (J.cell i) a)
      else 0 := by
  have hn := (m.axis a).pos
  have h1 : J.jumps v y = ∑ l ∈ range (m.axis a).n, if l + 1 < (m.axis a).n then (m.axis a).jumpGrad l (J.fn y v) ^ 2 else 0 := by
    exact sum_range_pred hn fun l => (m.axis a).jumpGrad l (J.fn y v) ^ 2
  rw [h1, ← Fin.sum_univ_eq_sum_range (fun l => if l + 1 < (m.axis a).n then (m.axis a).jumpGrad l (J.fn y v) ^ 2 else 0)]
  refine sum_congr rfl fun i _ => ?_
  by_cases h : i.1 + 1 < (m.axis a).n
  · rw [if_pos h, dif_pos (by rw [J.cell_same]; exact h), sq]
    have h' : (J.cell i a).1 + 1 < (m.axis a).n := by rw [J.cell_same]; exact h
    have e : (m.axis a).jumpGrad i (J.fn y v) = (AnaD.line a y (m.jump a (J.cell i) h' a v)).1 (hi (J.cell i) a) := by
      rw [Mesh1.jumpGrad_apply, (m.axis a).cell_apply i.2, (m.axis a).cell_apply h, J.hi_same, jump]
      simp only [Line.fn]
      rw [AnaD.line_deriv, AnaD.line_deriv, ← J.next_cell i h']
      rfl
    rw [e]
  · rw [if_neg h, dif_neg (by rw [J.cell_same]; exact h)]

theorem jumps_cont {a : Fin (n + 1)} (J : m.Line a) (v : m.Broken) : Continuous (J.jumps v) := by
  rw [funext (m.jumps_eq J v)]
  refine continuous_finsetSum _ fun i _ => ?_
  split
  · exact (line_cont' _ _).mul (line_cont' _ _)
  · exact continuous_const

/-- The penalty on boundary values controls those in direction `a`. -/
theorem ends_le_pen {dM : ℝ} (hM : ∀ I : m.Cell, diam I ≤ dM) (a : Fin (n + 1)) (v : m.Broken) :
    ∑ J : m.Line a, ∫ y in J.box, J.ends v y ≤ dM * m.space.pen v v := by
  have h1 : ∑ I : m.Cell, ((if (I a).1 + 1 = (m.axis a).n then 1 / diam I * m.faceInt a (hi I a) I (v I).1 (v I).1 else 0)
      + (if (I a).1 = 0 then 1 / diam I * m.faceInt a (lo I a) I (v I).1 (v I).1 else 0)) ≤ m.space.pen v v := by
    rw [space_pen]
    exact single_le_sum (f := fun a => ∑ I : m.Cell, ((if (I a).1 + 1 = (m.axis a).n then 1 / diam I * m.faceInt a (hi I a) I (v I).1 (v I).1 else 0)
      + (if (I a).1 = 0 then 1 / diam I * m.faceInt a (lo I a) I (v I).1 (v I).1 else 0)))
      (fun a _ => sum_nonneg fun I _ => m.pen_term_nonneg v a I) (mem_univ a)
  have hd : 0 ≤ dM := by
    have I : m.Cell := fun a => ⟨0, (m.axis a).pos⟩
    exact (m.diam_pos I).le.trans (hM I)
  refine le_trans ?_ (mul_le_mul_of_nonneg_left h1 hd)
  rw [m.sum_cells a, mul_sum]
  refine sum_le_sum fun J _ => ?_
  simp only [m.ends_eq]
  rw [integral_add (m.line_sq_int J _ _) (m.line_sq_int J _ _),
    sum_add_distrib, mul_add, add_comm]
  have key : ∀ (i : Fin (m.axis a).n) (s : ℝ), ∫ y in J.box, (AnaD.line a y (v (J.cell i))).1 s * (AnaD.line a y (v (J.cell i))).1 s
      ≤ dM * (1 / diam (J.cell i) * m.faceInt a s (J.cell i) (v (J.cell i)).1 (v (J.cell i)).1) := by
    intro i s
    rw [m.faceInt_line J i s, ← mul_assoc]
    refine le_mul_of_one_le_left (integral_nonneg fun _ => mul_self_nonneg _) ?_
    rw [mul_one_div]
    exact (one_le_div (m.diam_pos _)).2 (hM _)
  have np : ∀ (i : Fin (m.axis a).n) (s : ℝ), 0 ≤ 1 / diam (J.cell i) * m.faceInt a s (J.cell i) (v (J.cell i)).1 (v (J.cell i)).1 :=
    fun i s => mul_nonneg (by have := m.diam_pos (J.cell i); positivity) (m.faceInt_self_nonneg _ _ _ _)
  refine add_le_add ?_ ?_
  · have h2 := single_le_sum (f := fun i => if (J.cell i a).1 + 1 = (m.axis a).n then
        1 / diam (J.cell i) * m.faceInt a (hi (J.cell i) a) (J.cell i) (v (J.cell i)).1 (v (J.cell i)).1 else 0)
      (fun i _ => by split; exacts [np i _, le_rfl]) (mem_univ (⟨_, m.last_lt a⟩ : Fin (m.axis a).n))
    refine le_trans ?_ (mul_le_mul_of_nonneg_left h2 hd)
    have hl : (m.axis a).n - 1 + 1 = (m.axis a).n := Nat.sub_add_cancel (m.axis a).pos
    rw [if_pos (by rw [J.cell_same]; exact hl)]
    have := key ⟨_, m.last_lt a⟩ ((m.axis a).x (m.axis a).n)
    rwa [J.hi_same, show ((⟨(m.axis a).n - 1, m.last_lt a⟩ : Fin (m.axis a).n) : ℕ) + 1 = (m.axis a).n from hl]
  · have h2 := single_le_sum (f := fun i => if (J.cell i a).1 = 0 then
        1 / diam (J.cell i) * m.faceInt a (lo (J.cell i) a) (J.cell i) (v (J.cell i)).1 (v (J.cell i)).1 else 0)
      (fun i _ => by split; exacts [np i _, le_rfl]) (mem_univ (⟨0, (m.axis a).pos⟩ : Fin (m.axis a).n))
    refine le_trans ?_ (mul_le_mul_of_nonneg_left h2 hd)
    rw [if_pos (by rw [J.cell_same])]
    have := key ⟨0, (m.axis a).pos⟩ ((m.axis a).x 0)
    rwa [J.lo_same]

/-- The penalty on jumps of the gradient controls those in direction `a`. -/
theorem jumps_le_ghost {dm : ℝ} (hd : ∀ I : m.Cell, dm ≤ diam I) (a : Fin (n + 1)) (v : m.Broken) :
    dm * ∑ J : m.Line a, ∫ y in J.box, J.jumps v y ≤ m.space.ghost v v := by
  have h1 : ∑ I : m.Cell, (if h : (I a).1 + 1 < (m.axis a).n then 1 / 2 * (diam I + diam (next a I h)) *
      ∑ b, m.faceInt a (hi I a) I (m.jump a I h b v).1 (m.jump a I h b v).1 else 0) ≤ m.space.ghost v v := by
    rw [space_ghost]
    exact single_le_sum (f := fun a => ∑ I : m.Cell, (if h : (I a).1 + 1 < (m.axis a).n then 1 / 2 * (diam I + diam (next a I h)) *
      ∑ b, m.faceInt a (hi I a) I (m.jump a I h b v).1 (m.jump a I h b v).1 else 0))
      (fun a _ => sum_nonneg fun I _ => m.ghost_term_nonneg v a I) (mem_univ a)
  refine le_trans ?_ h1
  rw [m.sum_cells a, mul_sum]
  refine sum_le_sum fun J _ => ?_
  simp only [m.jumps_eq]
  rw [integral_finsetSum _ fun i _ => by
    split
    · exact m.box_int J ((line_cont' _ _).mul (line_cont' _ _))
    · exact m.box_int J continuous_const, mul_sum]
  refine sum_le_sum fun i _ => ?_
  by_cases h : (J.cell i a).1 + 1 < (m.axis a).n
  · simp only [h, dif_pos]
    rw [← m.faceInt_line J i]
    have h2 := single_le_sum (f := fun b => m.faceInt a (hi (J.cell i) a) (J.cell i) (m.jump a (J.cell i) h b v).1 (m.jump a (J.cell i) h b v).1)
      (fun b _ => m.faceInt_self_nonneg _ _ _ _) (mem_univ a)
    have d1 := hd (J.cell i); have d2 := hd (next a (J.cell i) h)
    have p1 := m.diam_pos (J.cell i); have p2 := m.diam_pos (next a (J.cell i) h)
    exact mul_le_mul (by linarith) h2 (m.faceInt_self_nonneg _ _ _ _) (by positivity)
  · simp only [h, dif_neg, not_false_eq_true, integral_zero, mul_zero, le_refl]

/-- A multilinear function on a grid with cells of diameter between `dm` and `dM` is controlled by its boundary values and the
jumps of its gradient; `L` is the length of the grid in direction `a`. -/
theorem multilinear_control {v : m.Broken} (hv : v ∈ m.lagrange 1) {dm dM L : ℝ} (h0 : 0 < dm)
    (hd : ∀ I : m.Cell, dm ≤ diam I ∧ diam I ≤ dM) (a : Fin (n + 1)) (hL : (m.axis a).x (m.axis a).n - (m.axis a).x 0 = L) :
    m.space.mass v v ≤ L * (10 * (dM * m.space.pen v v) + 4 * (L ^ 2 * ((m.axis a).n * (m.space.ghost v v / dm)))) := by
  have hL0 : 0 ≤ L := by
    have hsum : ∑ i ∈ range (m.axis a).n, (m.axis a).h i = L := by rw [← hL]; exact sum_range_sub (m.axis a).x (m.axis a).n
    exact hsum ▸ sum_nonneg fun i hi => ((m.axis a).h_pos (mem_range.1 hi)).le
  have h1 := m.ends_le_pen (fun I => (hd I).2) a v
  have h2 := m.jumps_le_ghost (fun I => (hd I).1) a v
  rw [mul_comm, ← le_div_iff₀ h0] at h2
  refine le_trans ?_ (mul_le_mul_of_nonneg_left (add_le_add (mul_le_mul_of_nonneg_left h1 (by norm_num : (0:ℝ) ≤ 10))
    (mul_le_mul_of_nonneg_left (mul_le_mul_of_nonneg_left (mul_le_mul_of_nonneg_left h2 (Nat.cast_nonneg _)) (sq_nonneg L))
      (by norm_num : (0:ℝ) ≤ 4))) hL0)
  rw [m.mass_lines a, mul_sum, mul_sum, mul_sum, mul_sum, ← sum_add_distrib, mul_sum]
  refine sum_le_sum fun J _ => ?_
  have he := m.box_int J (m.ends_cont J v)
  have hj := m.box_int J (m.jumps_cont J v)
  rw [← integral_const_mul, ← integral_const_mul, ← integral_const_mul, ← integral_const_mul,
    ← integral_add (he.const_mul _) (((hj.const_mul _).const_mul _).const_mul _), ← integral_const_mul]
  have hc : Continuous fun y => (m.axis a).space.mass (J.fn y v) (J.fn y v) := by
    simp only [m.line_mass]
    exact continuous_finsetSum _ fun i _ => line_mass_cont _ _ _ _
  refine setIntegral_mono_on (m.box_int J hc) (((he.const_mul _).add (((hj.const_mul _).const_mul _).const_mul _)).const_mul _)
    measurableSet_Icc fun y hy => ?_
  exact (m.axis a).linear_control_sq (m.line_lagrange hv J hy) hL le_rfl le_rfl

/-! ### Multilinear elements -/

theorem hat_apply (s : (a : Fin (n + 1)) → Fin ((m.axis a).n + 1)) (I : m.Cell) (a : Fin (n + 1)) (r : ℝ) (y : Fin n → ℝ) :
    (m.hat s I).1 (a.insertNth r y) = ((m.axis a).cell (I a) ((m.axis a).hat (s a))).1 r
      * ∏ b, ((m.axis (a.succAbove b)).hat (s (a.succAbove b)) (I (a.succAbove b))).1 (y b) := by
  simp only [hat]
  rw [Fin.prod_univ_succAbove _ a, Fin.insertNth_apply_same, (m.axis a).cell_apply (I a).2]
  refine congrArg _ (prod_congr rfl fun b _ => ?_)
  rw [Fin.insertNth_apply_succAbove]

theorem hat_mem (s : (a : Fin (n + 1)) → Fin ((m.axis a).n + 1)) : m.hat s ∈ m.lagrange 1 := by
  refine m.mem_lagrange.2 ⟨fun I a y => ?_, fun I a h y _ => ?_⟩
  · obtain ⟨p, hp, e⟩ := (m.axis a).hat_poly (s a) (I a) (I a).2
    refine ⟨p * Polynomial.C (∏ b, ((m.axis (a.succAbove b)).hat (s (a.succAbove b)) (I (a.succAbove b))).1 (y b)),
      (Polynomial.natDegree_mul_C_le _ _).trans hp, fun r => ?_⟩
    rw [hat_apply, e, Polynomial.eval_mul, Polynomial.eval_C]
  · rw [hat_apply, hat_apply]
    have e1 : next a I h a = ⟨I a + 1, h⟩ := Function.update_self _ _ _
    have e2 : ∀ b, next a I h (a.succAbove b) = I (a.succAbove b) := fun b => Function.update_of_ne (Fin.succAbove_ne a b) _ _
    rw [e1]
    simp only [e2]
    rw [hi, (m.axis a).hat_right _ (I a).2, (m.axis a).hat_left _ h]

theorem q1_primal : m.q1.primal ≤ m.lagrange 1 := by
  refine Submodule.span_le.2 ?_
  rintro _ ⟨s, hs, rfl⟩
  have e : m.q1.bP s = m.hat (finPiFinEquiv.symm ⟨s, hs⟩) := dif_pos (show s < m.nodes from hs)
  rw [e]
  exact m.hat_mem _

/-- The value of a basis function at a node. -/
theorem hat_node (S : (a : Fin (n + 1)) → Fin ((m.axis a).n + 1)) :
    ∃ (I : m.Cell) (x : Fin (n + 1) → ℝ), ∀ s, (m.hat s I).1 x = if s = S then 1 else 0 := by
  have h1 : ∀ a, ∃ (i : Fin (m.axis a).n) (r : ℝ), ∀ s, ((m.axis a).hat s i).1 r = if s = (S a).1 then 1 else 0 := by
    intro a
    rcases Nat.lt_succ_iff_lt_or_eq.1 (S a).2 with h | h
    · refine ⟨⟨S a, h⟩, (m.axis a).x (S a), fun s => ?_⟩
      have := (m.axis a).hat_left s h
      rwa [(m.axis a).cell_apply h] at this
    · refine ⟨⟨_, m.last_lt a⟩, (m.axis a).x (m.axis a).n, fun s => ?_⟩
      have := (m.axis a).hat_right s (m.last_lt a)
      rw [(m.axis a).cell_apply (m.last_lt a), Nat.sub_add_cancel (m.axis a).pos] at this
      rwa [h]
  choose I x h using h1
  refine ⟨I, x, fun s => ?_⟩
  simp only [hat, h]
  split
  · rename_i e
    exact prod_eq_one fun a _ => by rw [if_pos (by rw [e])]
  · rename_i e
    obtain ⟨a, ha⟩ := Function.ne_iff.1 e
    exact prod_eq_zero (mem_univ a) (if_neg fun h => ha (Fin.ext h))

theorem q1_indep : m.q1.Indep := by
  have key : ∀ a : ℕ → ℝ, ∑ s ∈ range m.nodes, a s • (if h : s < m.nodes then m.hat (finPiFinEquiv.symm ⟨s, h⟩) else 0) = 0 →
      ∀ s < m.nodes, a s = 0 := by
    intro a h s hs
    obtain ⟨I, x, hx⟩ := m.hat_node (finPiFinEquiv.symm ⟨s, hs⟩)
    have h1 := congrArg (fun v : m.Broken => (v I).1 x) h
    rw [← Fin.sum_univ_eq_sum_range (fun s => a s • (if h : s < m.nodes then m.hat (finPiFinEquiv.symm ⟨s, h⟩) else 0))] at h1
    simp only [Fin.is_lt, dif_pos, Finset.sum_apply, Submodule.coe_sum, Pi.smul_apply, Submodule.coe_smul, smul_eq_mul, hx,
      Pi.zero_apply, ZeroMemClass.coe_zero, EmbeddingLike.apply_eq_iff_eq, mul_ite, mul_one, mul_zero] at h1
    rwa [sum_eq_single (⟨s, hs⟩ : Fin m.nodes) (fun t _ ht => if_neg fun e => ht (Fin.ext (Fin.mk.inj e)))
      (fun h => absurd (mem_univ _) h), if_pos rfl] at h1
  intro c a
  fin_cases c <;> exact key a

/-! ### Products of functions of one coordinate -/

theorem int_prod {d : ℕ} {lo hi : Fin d → ℝ} (hle : ∀ a, lo a ≤ hi a) (f : Fin d → ℝ → ℝ) :
    ∫ x in Set.Icc lo hi, ∏ a, f a (x a) = ∏ a, ∫ s in (lo a)..(hi a), f a s := by
  rw [← Set.pi_univ_Icc, volume_pi, Measure.restrict_pi_pi, integral_fintype_prod_eq_prod]
  refine prod_congr rfl fun a _ => ?_
  rw [intervalIntegral.integral_of_le (hle a), integral_Icc_eq_integral_Ioc]

theorem mass_prod {u v : m.Broken} {f : Fin (n + 1) → ℝ → ℝ} (hf : ∀ a, Continuous (f a))
    (h : ∀ I y, (u I).1 y * (v I).1 y = ∏ a, f a (y a)) :
    m.space.mass u v = ∏ a, ∫ s in ((m.axis a).x 0)..((m.axis a).x (m.axis a).n), f a s := by
  have e1 : m.space.mass u v = ∑ I : m.Cell, ∏ a, ∫ s in (lo I a)..(hi I a), f a s := by
    rw [space_mass]
    refine sum_congr rfl fun I _ => ?_
    simp only [h]
    exact int_prod (fun a => (m.lo_lt_hi I a).le) f
  have e2 := prod_univ_sum (fun a => (univ : Finset (Fin (m.axis a).n)))
    (fun a i => ∫ s in ((m.axis a).x i)..((m.axis a).x (i + 1)), f a s)
  rw [Fintype.piFinset_univ] at e2
  refine e1.trans (e2.symm.trans ?_)
  refine prod_congr rfl fun a _ => ?_
  rw [Fin.sum_univ_eq_sum_range (fun i => ∫ s in ((m.axis a).x i)..((m.axis a).x (i + 1)), f a s)]
  exact intervalIntegral.sum_integral_adjacent_intervals fun i _ => (hf a).intervalIntegrable _ _

end Grid

theorem int_sin_pi_sq : ∫ y in (0:ℝ)..1, Real.sin (Real.pi * y) * Real.sin (Real.pi * y) = 1 / 2 := by
  have hF : ∀ y ∈ Set.uIcc (0:ℝ) 1, HasDerivAt (fun y => 1 / 2 * y - 1 / (2 * Real.pi) * (Real.sin (Real.pi * y) * Real.cos (Real.pi * y)))
      (Real.sin (Real.pi * y) * Real.sin (Real.pi * y)) y := by
    intro y _
    have h0 : HasDerivAt (fun y : ℝ => Real.pi * y) Real.pi y := by
      simpa using (hasDerivAt_id y).const_mul Real.pi
    have := ((hasDerivAt_id y).const_mul (1 / 2)).sub (((h0.sin).mul (h0.cos)).const_mul (1 / (2 * Real.pi)))
    refine this.congr_deriv ?_
    have hc := Real.sin_sq_add_cos_sq (Real.pi * y)
    have hp := Real.pi_ne_zero
    field_simp
    linear_combination (-1) * hc
  rw [intervalIntegral.integral_eq_sub_of_hasDerivAt hF (Continuous.intervalIntegrable (by fun_prop) _ _)]
  simp

namespace Grid
variable {n k : ℕ} {hk : 0 < k}

theorem unit_ends (a : Fin (n + 1)) : ((unit n k hk).axis a).x 0 = 0 ∧ ((unit n k hk).axis a).x ((unit n k hk).axis a).n = 1 := by
  have : (k : ℝ) ≠ 0 := by exact_mod_cast hk.ne'
  simp [unit, Mesh1.unit, this]

theorem unit_diam (I : (unit n k hk).Cell) : diam I = √(n + 1) / k := by
  have h : ∀ a, ((unit n k hk).axis a).h (I a) = 1 / k := fun a => by
    have : (k : ℝ) ≠ 0 := by exact_mod_cast hk.ne'
    simp only [unit, Mesh1.h, Mesh1.unit]; push_cast; field_simp; ring
  simp only [diam, h]
  rw [sum_const, card_univ, Fintype.card_fin, nsmul_eq_mul, Real.sqrt_mul (by positivity), Real.sqrt_sq (by positivity)]
  push_cast
  ring

theorem unit_one : (unit n k hk).space.mass (unit n k hk).space.one (unit n k hk).space.one = 1 := by
  rw [mass_prod _ (f := fun _ _ => 1) (fun _ => continuous_const) fun I y => by simp [space]]
  refine prod_eq_one fun a _ => ?_
  rw [(unit_ends a).1, (unit_ends a).2]; simp

theorem unit_sines (c : ℝ) :
    (unit n k hk).space.mass ((unit n k hk).fn (AnaD.sines c)) ((unit n k hk).fn (AnaD.sines c)) = c ^ 2 / 2 ^ (n + 1) := by
  rw [mass_prod _ (f := fun a s => (if a = 0 then c ^ 2 else 1) * (Real.sin (Real.pi * s) * Real.sin (Real.pi * s)))
    (fun a => by fun_prop) fun I y => ?_]
  · rw [prod_congr rfl fun a _ => show _ = (if a = (0 : Fin (n + 1)) then c ^ 2 else 1) * (1 / 2) by
      rw [intervalIntegral.integral_const_mul, (unit_ends a).1, (unit_ends a).2, int_sin_pi_sq]]
    rw [prod_mul_distrib, prod_ite_eq' univ 0 fun _ => c ^ 2, prod_const]
    simp
    ring
  · rw [prod_mul_distrib, prod_ite_eq' univ 0 fun _ => c ^ 2, prod_mul_distrib]
    simp only [fn, AnaD.sines, mem_univ, if_true]
    ring

end Grid
end Dxss
