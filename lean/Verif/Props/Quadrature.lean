import Verif.Lemmas.Time
import Mathlib.Algebra.Polynomial.Eval.Degree
import Mathlib.Analysis.SpecialFunctions.Integrals.Basic
import Mathlib.Topology.Algebra.Polynomial

/-!
# Properties C07–C09: quadrature rules in time
-/

namespace Dxss
open Finset

/-- Specification: the value a quadrature rule with the given points/weights assigns to `f`. -/
noncomputable def quadSum (pts ws : List ℝ) (f : ℝ → ℝ) : ℝ :=
  (List.zipWith (fun p w => w * f p) pts ws).sum

/-- Specification: the supported combinations of rule name and number of points. -/
def RuleSupported (name : String) (n : ℤ) : Prop :=
  (name = "Gauss-Radau" ∧ (n = 3 ∨ n = 4 ∨ n = 5)) ∨
  (name = "Gauss" ∧ (n = 1 ∨ n = 2 ∨ n = 3)) ∨
  (name = "Newton-Cotes" ∧ (n = 2 ∨ n = 3)) ∨ name = "Midpoint-Rule"

def RuleFamily (name : String) : Prop :=
  name = "Gauss-Radau" ∨ name = "Gauss" ∨ name = "Newton-Cotes" ∨ name = "Midpoint-Rule"

/-! ## C07 -/

theorem gaussRadau_none {n : ℤ} (h : ¬ (n = 3 ∨ n = 4 ∨ n = 5)) : gaussRadau n = none := by
  unfold gaussRadau; split <;> simp_all
theorem gauss_none {n : ℤ} (h : ¬ (n = 1 ∨ n = 2 ∨ n = 3)) : gauss n = none := by
  unfold gauss; split <;> simp_all
theorem newtonCotes_none {n : ℤ} (h : ¬ (n = 2 ∨ n = 3)) : newtonCotes n = none := by
  unfold newtonCotes; split <;> simp_all

/-- Every unsupported point count of a known family raises; Newton–Cotes with one point fails
with `ZeroDivisionError`, everything else with `KeyError`. -/
theorem C07_rejects (name : String) (n : ℤ) (hf : RuleFamily name) (h : ¬ RuleSupported name n) :
    mkQuadRule name n = .error (if name = "Newton-Cotes" ∧ n = 1 then .zeroDivision else .keyError) := by
  rcases hf with rfl | rfl | rfl | rfl
  · have : gaussRadau n = none := gaussRadau_none fun hh => h (Or.inl ⟨rfl, hh⟩)
    simp [mkQuadRule, this]
  · have : gauss n = none := gauss_none fun hh => h (Or.inr (Or.inl ⟨rfl, hh⟩))
    simp [mkQuadRule, this]
  · have : newtonCotes n = none := newtonCotes_none fun hh => h (Or.inr (Or.inr (Or.inl ⟨rfl, hh⟩)))
    by_cases h1 : n = 1
    · subst h1; simp [mkQuadRule, pyRange]
    · have : ¬ (n - 1 = 0) := by omega
      simp [mkQuadRule, *]
  · exact absurd (Or.inr (Or.inr (Or.inr rfl))) h

/-- An unrecognised name is accepted; both methods then return `None`. -/
theorem C07_unknown_name (name : String) (n : ℤ) (h : ¬ RuleFamily name) (a b : ℝ) :
    ∃ r, mkQuadRule name n = .ok r ∧ r.currentPts a b = .ok none ∧
      r.tWeights (b - a) = .ok none := by
  simp only [RuleFamily, not_or] at h
  obtain ⟨h1, h2, h3, h4⟩ := h
  refine ⟨⟨name, n, none⟩, ?_, ?_, ?_⟩ <;>
    simp [mkQuadRule, QuadRule.currentPts, QuadRule.tWeights, h1, h2, h3, h4]

/-- What a usable rule on `[a,b]` must satisfy. -/
structure RuleOK (pts ws : List ℝ) (a b : ℝ) : Prop where
  nonempty : pts ≠ []
  length_eq : pts.length = ws.length
  inside : ∀ p ∈ pts, a ≤ p ∧ p ≤ b
  pos : ∀ w ∈ ws, 0 < w
  sum_eq : ws.sum = b - a

theorem sqrt6_bounds : (2.4:ℝ) < √6 ∧ √6 < 2.5 := by
  constructor
  · rw [Real.lt_sqrt (by norm_num)]; norm_num
  · rw [Real.sqrt_lt' (by norm_num)]; norm_num
theorem sqrt3_bounds : (1.7:ℝ) < √3 ∧ √3 < 1.8 := by
  constructor
  · rw [Real.lt_sqrt (by norm_num)]; norm_num
  · rw [Real.sqrt_lt' (by norm_num)]; norm_num
theorem sqrt35_bounds : (0.7:ℝ) < √(3/5) ∧ √(3/5) < 0.8 := by
  constructor
  · rw [Real.lt_sqrt (by norm_num)]; norm_num
  · rw [Real.sqrt_lt' (by norm_num)]; norm_num

theorem affine_inside {a b x : ℝ} (hab : a < b) (h1 : -1 ≤ x) (h2 : x ≤ 1) :
    a ≤ 0.5 * (b - a) * x + 0.5 * (b + a) ∧ 0.5 * (b - a) * x + 0.5 * (b + a) ≤ b := by
  constructor <;> nlinarith

theorem newtonCotes2_eval (a b : ℝ) : ∃ r, mkQuadRule "Newton-Cotes" 2 = .ok r ∧
    r.currentPts a b = .ok (some [a, b]) ∧
    r.tWeights (b - a) = .ok (some [(b-a) * (1/2), (b-a) * (1/2)]) := by
  refine ⟨⟨"Newton-Cotes", 2, some ([0, 1], [1/2, 1/2])⟩, ?_, ?_, ?_⟩
  · simp only [mkQuadRule, show ¬ ("Newton-Cotes" = "Gauss-Radau") by decide,
      show ¬ ("Newton-Cotes" = "Gauss") by decide, if_false, if_true, newtonCotes,
      show pyRange 2 = [0, 1] from rfl]
    norm_num
  · simp only [QuadRule.currentPts, show ¬ ("Newton-Cotes" = "Gauss-Radau") by decide,
      show ¬ ("Newton-Cotes" = "Gauss") by decide, or_self, if_false, if_true,
      show pyRange 2 = [0, 1] from rfl]
    norm_num
  · simp [QuadRule.tWeights]

theorem newtonCotes3_eval (a b : ℝ) : ∃ r, mkQuadRule "Newton-Cotes" 3 = .ok r ∧
    r.currentPts a b = .ok (some [a, a + (b-a)/2, b]) ∧
    r.tWeights (b - a) = .ok (some [(b-a) * (1/6), (b-a) * (4/6), (b-a) * (1/6)]) := by
  refine ⟨⟨"Newton-Cotes", 3, some ([0, 1/2, 1], [1/6, 4/6, 1/6])⟩, ?_, ?_, ?_⟩
  · simp only [mkQuadRule, show ¬ ("Newton-Cotes" = "Gauss-Radau") by decide,
      show ¬ ("Newton-Cotes" = "Gauss") by decide, if_false, if_true, newtonCotes,
      show pyRange 3 = [0, 1, 2] from rfl]
    norm_num
  · simp only [QuadRule.currentPts, show ¬ ("Newton-Cotes" = "Gauss-Radau") by decide,
      show ¬ ("Newton-Cotes" = "Gauss") by decide, or_self, if_false, if_true,
      show pyRange 3 = [0, 1, 2] from rfl]
    norm_num
    ring
  · simp [QuadRule.tWeights]

theorem C07_accepts (name : String) (n : ℤ) (h : RuleSupported name n) {a b : ℝ} (hab : a < b) :
    ∃ r pts ws, mkQuadRule name n = .ok r ∧ r.currentPts a b = .ok (some pts) ∧
      r.tWeights (b - a) = .ok (some ws) ∧ RuleOK pts ws a b := by
  have hd : 0 < b - a := sub_pos.mpr hab
  obtain ⟨s6l, s6u⟩ := sqrt6_bounds
  obtain ⟨s3l, s3u⟩ := sqrt3_bounds
  obtain ⟨s5l, s5u⟩ := sqrt35_bounds
  have i3 : 0 < 1.0 / √3 ∧ 1.0 / √3 ≤ 1 := by
    constructor
    · positivity
    · rw [div_le_one (by linarith)]; linarith
  have scaled : ∀ w : ℝ, 0 < w → 0 < 0.5 * (b - a) * w := fun w hw => by positivity
  rcases h with ⟨rfl, rfl | rfl | rfl⟩ | ⟨rfl, rfl | rfl | rfl⟩ | ⟨rfl, rfl | rfl⟩ | rfl
  · refine ⟨_, _, _, rfl, rfl, rfl, by simp, rfl, ?_, ?_, ?_⟩
    · simp only [List.forall_mem_map, List.forall_mem_cons]
      exact ⟨affine_inside hab (by norm_num) (by norm_num),
        affine_inside hab (by linarith) (by linarith), affine_inside hab (by linarith) (by linarith),
        by simp⟩
    · simp only [List.forall_mem_map, List.forall_mem_cons]
      exact ⟨scaled _ (by norm_num), scaled _ (by linarith), scaled _ (by linarith), by simp⟩
    · simp only [List.map, List.sum_cons, List.sum_nil]; norm_num; ring
  · refine ⟨_, _, _, rfl, rfl, rfl, by simp, rfl, ?_, ?_, ?_⟩
    · simp only [List.forall_mem_map, List.forall_mem_cons]
      exact ⟨affine_inside hab (by norm_num) (by norm_num),
        affine_inside hab (by norm_num) (by norm_num), affine_inside hab (by norm_num) (by norm_num),
        affine_inside hab (by norm_num) (by norm_num), by simp⟩
    · simp only [List.forall_mem_map, List.forall_mem_cons]
      exact ⟨scaled _ (by norm_num), scaled _ (by norm_num), scaled _ (by norm_num),
        scaled _ (by norm_num), by simp⟩
    · simp only [List.map, List.sum_cons, List.sum_nil]; norm_num; ring
  · refine ⟨_, _, _, rfl, rfl, rfl, by simp, rfl, ?_, ?_, ?_⟩
    · simp only [List.forall_mem_map, List.forall_mem_cons]
      exact ⟨affine_inside hab (by norm_num) (by norm_num),
        affine_inside hab (by norm_num) (by norm_num), affine_inside hab (by norm_num) (by norm_num),
        affine_inside hab (by norm_num) (by norm_num), affine_inside hab (by norm_num) (by norm_num),
        by simp⟩
    · simp only [List.forall_mem_map, List.forall_mem_cons]
      exact ⟨scaled _ (by norm_num), scaled _ (by norm_num), scaled _ (by norm_num),
        scaled _ (by norm_num), scaled _ (by norm_num), by simp⟩
    · simp only [List.map, List.sum_cons, List.sum_nil]; norm_num; ring
  · refine ⟨_, _, _, rfl, rfl, rfl, by simp, rfl, ?_, ?_, ?_⟩
    · simp only [List.forall_mem_map, List.forall_mem_cons]
      exact ⟨affine_inside hab (by norm_num) (by norm_num), by simp⟩
    · simp only [List.forall_mem_map, List.forall_mem_cons]
      exact ⟨scaled _ (by norm_num), by simp⟩
    · simp only [List.map, List.sum_cons, List.sum_nil]; norm_num; ring
  · refine ⟨_, _, _, rfl, rfl, rfl, by simp, rfl, ?_, ?_, ?_⟩
    · simp only [List.forall_mem_map, List.forall_mem_cons]
      have e : -1.0 / √3 = -(1.0 / √3) := neg_div _ _
      exact ⟨affine_inside hab (by rw [e]; linarith) (by rw [e]; linarith),
        affine_inside hab (by linarith) (by linarith), by simp⟩
    · simp only [List.forall_mem_map, List.forall_mem_cons]
      exact ⟨scaled _ (by norm_num), scaled _ (by norm_num), by simp⟩
    · simp only [List.map, List.sum_cons, List.sum_nil]; norm_num; ring
  · refine ⟨_, _, _, rfl, rfl, rfl, by simp, rfl, ?_, ?_, ?_⟩
    · simp only [List.forall_mem_map, List.forall_mem_cons]
      exact ⟨affine_inside hab (by linarith) (by linarith),
        affine_inside hab (by norm_num) (by norm_num), affine_inside hab (by linarith) (by linarith),
        by simp⟩
    · simp only [List.forall_mem_map, List.forall_mem_cons]
      exact ⟨scaled _ (by norm_num), scaled _ (by norm_num), scaled _ (by norm_num), by simp⟩
    · simp only [List.map, List.sum_cons, List.sum_nil]; norm_num; ring
  · obtain ⟨r, h1, h2, h3⟩ := newtonCotes2_eval a b
    refine ⟨r, _, _, h1, h2, h3, by simp, rfl, ?_, ?_, ?_⟩
    · intro p hp; simp at hp; rcases hp with rfl | rfl <;> constructor <;> linarith
    · intro w hw; simp at hw; subst hw; positivity
    · simp; ring
  · obtain ⟨r, h1, h2, h3⟩ := newtonCotes3_eval a b
    refine ⟨r, _, _, h1, h2, h3, by simp, rfl, ?_, ?_, ?_⟩
    · intro p hp; simp at hp; rcases hp with rfl | rfl | rfl <;> constructor <;> linarith
    · intro w hw; simp at hw; rcases hw with rfl | rfl | rfl <;> positivity
    · simp; ring
  · refine ⟨_, _, _, rfl, rfl, rfl, by simp, rfl, ?_, ?_, ?_⟩
    · intro p hp; simp at hp; subst hp; constructor <;> linarith
    · intro w hw; simp at hw; subst hw; exact hd
    · simp

/-! ## C08 -/

theorem quadSum_poly (pts ws : List ℝ) (s : Finset ℕ) (c : ℕ → ℝ) :
    quadSum pts ws (fun x => ∑ k ∈ s, c k * x ^ k)
      = ∑ k ∈ s, c k * quadSum pts ws (fun x => x ^ k) := by
  unfold quadSum
  induction pts generalizing ws with
  | nil => simp
  | cons p ps ih =>
    cases ws with
    | nil => simp
    | cons w ws =>
      simp only [List.zipWith_cons_cons, List.sum_cons, mul_add, sum_add_distrib]
      rw [ih ws, mul_sum]
      congr 1
      exact sum_congr rfl fun k _ => by ring

/-- Agreement on monomials extends to all polynomials of the given degree. -/
theorem quadSum_exact_of_monomials (pts ws : List ℝ) (a b : ℝ) (d : ℕ)
    (h : ∀ k ≤ d, quadSum pts ws (fun x => x ^ k) = (b ^ (k+1) - a ^ (k+1)) / (k + 1))
    (p : Polynomial ℝ) (hp : p.natDegree ≤ d) :
    quadSum pts ws (fun x => p.eval x) = ∫ x in a..b, p.eval x := by
  have e : ∀ x, p.eval x = ∑ k ∈ range (d+1), p.coeff k * x ^ k := fun x =>
    Polynomial.eval_eq_sum_range' (Nat.lt_succ_of_le hp) x
  simp only [e]
  rw [quadSum_poly, intervalIntegral.integral_finsetSum]
  · refine sum_congr rfl fun k hk => ?_
    rw [h k (Nat.lt_succ_iff.mp (mem_range.mp hk)), intervalIntegral.integral_const_mul, integral_pow]
  · intro k _
    exact (continuous_const.mul (continuous_pow k)).intervalIntegrable _ _

/-- Specification: the advertised polynomial exactness of each rule given in exact form. -/
def ruleDegree : String → ℤ → Option ℕ
  | "Gauss", 1 => some 1
  | "Gauss", 2 => some 3
  | "Gauss", 3 => some 5
  | "Gauss-Radau", 3 => some 4
  | "Newton-Cotes", 2 => some 1
  | "Newton-Cotes", 3 => some 3
  | "Midpoint-Rule", _ => some 1
  | _, _ => none

/-- The rule `name, n` integrates polynomials of degree `≤ d` exactly on every interval. -/
def ExactOn (name : String) (n : ℤ) (d : ℕ) : Prop :=
  ∀ (a b : ℝ) (p : Polynomial ℝ), p.natDegree ≤ d →
    ∃ r pts ws, mkQuadRule name n = .ok r ∧ r.currentPts a b = .ok (some pts) ∧
      r.tWeights (b - a) = .ok (some ws) ∧
      quadSum pts ws (fun x => p.eval x) = ∫ x in a..b, p.eval x

theorem exact_gauss1 : ExactOn "Gauss" 1 1 := by
  intro a b p hp
  refine ⟨_, _, _, rfl, rfl, rfl, quadSum_exact_of_monomials _ _ a b 1 ?_ p hp⟩
  intro k hk
  interval_cases k <;> norm_num [quadSum] <;> ring

theorem exact_gauss2 : ExactOn "Gauss" 2 3 := by
  intro a b p hp
  refine ⟨_, _, _, rfl, rfl, rfl, quadSum_exact_of_monomials _ _ a b 3 ?_ p hp⟩
  intro k hk
  have h3 : (√3)^2 = 3 := Real.sq_sqrt (by norm_num)
  have hi : (1.0 / √3)^2 = 1/3 := by rw [div_pow, h3]; norm_num
  have e : -1.0 / √3 = -(1.0 / √3) := neg_div _ _
  rw [e]
  generalize (1.0 / √3) = s at hi ⊢
  interval_cases k <;> simp only [quadSum, List.map, List.zipWith, List.sum_cons, List.sum_nil]
  · norm_num; ring
  · norm_num; ring
  · norm_num; linear_combination (b-a)^3/4 * hi
  · norm_num; linear_combination (3/8) * (b-a)^3 * (b+a) * hi

theorem exact_gauss3 : ExactOn "Gauss" 3 5 := by
  intro a b p hp
  refine ⟨_, _, _, rfl, rfl, rfl, quadSum_exact_of_monomials _ _ a b 5 ?_ p hp⟩
  intro k hk
  have hi : (√(3/5))^2 = 3/5 := Real.sq_sqrt (by norm_num)
  generalize √(3/5) = s at hi ⊢
  have h4 : s^4 = 9/25 := by linear_combination (s^2 + 3/5) * hi
  interval_cases k <;> simp only [quadSum, List.map, List.zipWith, List.sum_cons, List.sum_nil]
  · norm_num; ring
  · norm_num; ring
  · norm_num; linear_combination (b-a)^3 * (5/36) * hi
  · norm_num; linear_combination (5/24) * (b-a)^3 * (b+a) * hi
  · norm_num; linear_combination (5/24) * (b-a)^3 * (b+a)^2 * hi + (5/144) * (b-a)^5 * h4
  · norm_num; linear_combination (25/144) * (b-a)^3 * (b+a)^3 * hi + (25/288) * (b-a)^5 * (b+a) * h4

theorem exact_radau3 : ExactOn "Gauss-Radau" 3 4 := by
  intro a b p hp
  refine ⟨_, _, _, rfl, rfl, rfl, quadSum_exact_of_monomials _ _ a b 4 ?_ p hp⟩
  intro k hk
  have h2 : (√6)^2 = 6 := Real.sq_sqrt (by norm_num)
  generalize √6 = s at h2 ⊢
  have h3 : s^3 = 6 * s := by linear_combination s * h2
  have h4 : s^4 = 36 := by linear_combination (s^2 + 6) * h2
  have h5 : s^5 = 36 * s := by linear_combination s * h4
  interval_cases k <;> simp only [quadSum, List.map, List.zipWith, List.sum_cons, List.sum_nil] <;>
    norm_num <;> ring_nf <;> (try simp [h2, h3, h4, h5]) <;> ring

theorem exact_newtonCotes2 : ExactOn "Newton-Cotes" 2 1 := by
  intro a b p hp
  obtain ⟨r, h1, h2, h3⟩ := newtonCotes2_eval a b
  refine ⟨r, _, _, h1, h2, h3, quadSum_exact_of_monomials _ _ a b 1 ?_ p hp⟩
  intro k hk
  interval_cases k <;> norm_num [quadSum] <;> ring

theorem exact_newtonCotes3 : ExactOn "Newton-Cotes" 3 3 := by
  intro a b p hp
  obtain ⟨r, h1, h2, h3⟩ := newtonCotes3_eval a b
  refine ⟨r, _, _, h1, h2, h3, quadSum_exact_of_monomials _ _ a b 3 ?_ p hp⟩
  intro k hk
  interval_cases k <;> norm_num [quadSum] <;> ring

theorem exact_midpoint (n : ℤ) : ExactOn "Midpoint-Rule" n 1 := by
  intro a b p hp
  refine ⟨_, _, _, rfl, rfl, rfl, quadSum_exact_of_monomials _ _ a b 1 ?_ p hp⟩
  intro k hk
  interval_cases k <;> norm_num [quadSum]
  ring

/-- C08: every rule given in exact form has its advertised degree of exactness on all intervals. -/
theorem C08_polynomial_exactness (name : String) (n : ℤ) (d : ℕ) (h : ruleDegree name n = some d) :
    ExactOn name n d := by
  unfold ruleDegree at h
  split at h <;> simp only [Option.some.injEq, reduceCtorEq] at h <;> subst h
  exacts [exact_gauss1, exact_gauss2, exact_gauss3, exact_radau3, exact_newtonCotes2,
    exact_newtonCotes3, exact_midpoint _]

example : ruleDegree "Gauss-Radau" 3 = some 4 := rfl

/-! ## C09 -/

/-- Error bound per monomial extends to all polynomials, weighted with the coefficient sum. -/
theorem quadSum_error_of_monomials (pts ws : List ℝ) (a b ε : ℝ) (d : ℕ)
    (h : ∀ k ≤ d, |quadSum pts ws (fun x => x ^ k) - (b ^ (k+1) - a ^ (k+1)) / (k + 1)| ≤ ε)
    (p : Polynomial ℝ) (hp : p.natDegree ≤ d) :
    |quadSum pts ws (fun x => p.eval x) - ∫ x in a..b, p.eval x|
      ≤ ε * ∑ k ∈ range (d+1), |p.coeff k| := by
  have e : ∀ x, p.eval x = ∑ k ∈ range (d+1), p.coeff k * x ^ k := fun x =>
    Polynomial.eval_eq_sum_range' (Nat.lt_succ_of_le hp) x
  simp only [e]
  rw [quadSum_poly, intervalIntegral.integral_finsetSum, ← sum_sub_distrib, mul_sum]
  · refine (abs_sum_le_sum_abs _ _).trans (sum_le_sum fun k hk => ?_)
    rw [intervalIntegral.integral_const_mul, integral_pow, ← mul_sub, abs_mul, mul_comm]
    exact mul_le_mul_of_nonneg_right (h k (Nat.lt_succ_iff.mp (mem_range.mp hk))) (abs_nonneg _)
  · intro k _
    exact (continuous_const.mul (continuous_pow k)).intervalIntegrable _ _

/-- Change of variables for the two families given on `[-1,1]`. -/
theorem quadSum_affine (pts ws : List ℝ) {a b : ℝ} (hab : a < b) (g : ℝ → ℝ) :
    quadSum (pts.map fun pt => 0.5 * (b - a) * pt + 0.5 * (b + a)) (ws.map fun w => 0.5 * (b - a) * w)
      (fun x => g ((x - a) / (b - a)))
    = (b - a) * quadSum (pts.map fun pt => 0.5 * (1 - 0) * pt + 0.5 * (1 + 0))
        (ws.map fun w => 0.5 * 1 * w) g := by
  have hne : b - a ≠ 0 := (sub_pos.mpr hab).ne'
  unfold quadSum
  induction pts generalizing ws with
  | nil => simp
  | cons p ps ih =>
    cases ws with
    | nil => simp
    | cons w ws =>
      simp only [List.map_cons, List.zipWith_cons_cons, List.sum_cons]
      have : (0.5 * (b - a) * p + 0.5 * (b + a) - a) / (b - a) = 0.5 * (1 - 0) * p + 0.5 * (1 + 0) := by
        rw [div_eq_iff hne]; norm_num; ring
      rw [this, mul_add (b - a), ← ih ws]
      congr 1
      ring

theorem integral_affine {a b : ℝ} (hab : a < b) (g : ℝ → ℝ) :
    ∫ x in a..b, g ((x - a) / (b - a)) = (b - a) * ∫ x in (0:ℝ)..1, g x := by
  have hne : b - a ≠ 0 := (sub_pos.mpr hab).ne'
  have := intervalIntegral.integral_comp_div_sub (a := a) (b := b) g hne (a / (b - a))
  simp only [sub_div]
  rw [this, smul_eq_mul, sub_self, ← sub_div, div_self hne]

/-- The 4-point rule used for right-hand sides, on any slab `[a,b]` and any polynomial of degree
at most 6 in the slab-local time `(t-a)/(b-a)`. -/
theorem C09_radau4_error (p : Polynomial ℝ) (hp : p.natDegree ≤ 6) {a b : ℝ} (hab : a < b) :
    ∃ r pts ws, mkQuadRule "Gauss-Radau" 4 = .ok r ∧ r.currentPts a b = .ok (some pts) ∧
      r.tWeights (b - a) = .ok (some ws) ∧
      |quadSum pts ws (fun x => p.eval ((x - a) / (b - a))) - ∫ x in a..b, p.eval ((x - a) / (b - a))|
        ≤ (b - a) * (1e-6 * ∑ k ∈ range 7, |p.coeff k|) := by
  refine ⟨_, _, _, rfl, rfl, rfl, ?_⟩
  rw [quadSum_affine _ _ hab (fun x => p.eval x), integral_affine hab (fun x => p.eval x), ← mul_sub,
    abs_mul, abs_of_pos (sub_pos.mpr hab)]
  refine mul_le_mul_of_nonneg_left (quadSum_error_of_monomials _ _ 0 1 1e-6 6 ?_ p hp)
    (sub_pos.mpr hab).le
  intro k hk
  interval_cases k <;> norm_num [quadSum, abs_le]

/-- The 5-point rule used for error measurement. -/
theorem C09_radau5_error (p : Polynomial ℝ) (hp : p.natDegree ≤ 8) {a b : ℝ} (hab : a < b) :
    ∃ r pts ws, mkQuadRule "Gauss-Radau" 5 = .ok r ∧ r.currentPts a b = .ok (some pts) ∧
      r.tWeights (b - a) = .ok (some ws) ∧
      |quadSum pts ws (fun x => p.eval ((x - a) / (b - a))) - ∫ x in a..b, p.eval ((x - a) / (b - a))|
        ≤ (b - a) * (1e-6 * ∑ k ∈ range 9, |p.coeff k|) := by
  refine ⟨_, _, _, rfl, rfl, rfl, ?_⟩
  rw [quadSum_affine _ _ hab (fun x => p.eval x), integral_affine hab (fun x => p.eval x), ← mul_sub,
    abs_mul, abs_of_pos (sub_pos.mpr hab)]
  refine mul_le_mul_of_nonneg_left (quadSum_error_of_monomials _ _ 0 1 1e-6 8 ?_ p hp)
    (sub_pos.mpr hab).le
  intro k hk
  interval_cases k <;> norm_num [quadSum, abs_le]

open Polynomial in
example : (X ^ 6 : ℝ[X]).natDegree ≤ 6 ∧ (0:ℝ) < 1 := by simp

end Dxss
