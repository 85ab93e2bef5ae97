import Verif.Model.Indicators
import Mathlib.Data.List.Forall2
import Mathlib.Tactic.Linarith
import Mathlib.Tactic.NormNum
import Mathlib.Tactic.IntervalCases
import Mathlib.Tactic.Tauto

/-!
# C53: indicator functions
-/

namespace Dxss

/-- The array `x` has the given points in its columns. -/
def Columns (x : PointRows) (d : ℕ) (points : List (ℕ → ℝ)) : Prop := ∀ k < d, x k = points.map fun p => p k

/-- The value of the indicator of a region at a point. -/
def IsIndicatorAt (region : (ℕ → ℝ) → Prop) (p : ℕ → ℝ) (v : ℝ) : Prop := (region p → v = 1) ∧ (¬ region p → v = 0)

/-- One value per point: 1 in the region, 0 elsewhere. -/
def IsIndicator (region : (ℕ → ℝ) → Prop) (points : List (ℕ → ℝ)) (values : List ℝ) : Prop :=
  List.Forall₂ (IsIndicatorAt region) points values

/-! The regions -/

/-- the outer strips of width `a` of the unit interval, square, cube -/
def Strips (dim : ℕ) (a : ℝ) (p : ℕ → ℝ) : Prop := ∃ k < dim, p k ≤ a ∨ 1 - a ≤ p k

theorem maskSum_eq (mask : List Bool) : maskSum mask = mask.count true := by
  unfold maskSum
  have : ∀ n, mask.foldl (fun n b => n + b.toNat) n = n + mask.count true := by
    induction mask with
    | nil => intro n; simp
    | cons b l ih =>
      intro n
      rw [List.foldl_cons, ih, List.count_cons]
      cases b <;> (simp; try omega)
  rw [this, Nat.zero_add]

theorem maskedReplace_replicate (mask : List Bool) (values : List ℝ) (a : ℝ) (h : mask.length = values.length) :
    maskedReplace values mask (List.replicate (mask.count true) a)
      = List.zipWith (fun v b => if b then a else v) values mask := by
  induction mask generalizing values with
  | nil => cases values <;> simp_all [maskedReplace]
  | cons b l ih =>
    rcases values with _ | ⟨v, vs⟩
    · simp at h
    · have := ih vs (by simpa using h)
      cases b
      · simp [maskedReplace, this]
      · rw [List.count_cons_self, List.replicate_succ]
        simp [maskedReplace, this]

theorem maskedAssign_run (mask : List Bool) (values : List ℝ) (a : ℝ) (h : mask.length = values.length) :
    maskedAssign values mask (List.replicate (maskSum mask) a)
      = .ok (List.zipWith (fun v b => if b then a else v) values mask) := by
  unfold maskedAssign
  rw [if_neg (by simp [h]), if_neg (by simp [maskSum_eq]), maskSum_eq, maskedReplace_replicate mask values a h]

/-- The common body: a mask that marks the region gives the indicator of the region. -/
theorem indicatorOf_run {x : PointRows} {points : List (ℕ → ℝ)} (hx : x 0 = points.map fun p => p 0)
    {mask : PointRows → Py (List Bool)} {f : (ℕ → ℝ) → Bool} (hm : mask x = .ok (points.map f)) :
    indicatorOf x mask = .ok (points.map fun p => if f p then 1 else 0) := by
  unfold indicatorOf
  simp only [hm, bind, Except.bind]
  rw [maskedAssign_run _ _ _ (by simp [hx])]
  simp only []
  rw [maskedAssign_run _ _ _ (by simp [hx, invert])]
  simp only [hx, List.length_map, invert]
  show Except.ok _ = Except.ok _
  congr 1
  clear hm hx
  induction points with
  | nil => rfl
  | cons p l ih =>
    simp only [List.length_cons, List.replicate_succ, List.map_cons, List.zipWith_cons_cons, ih]
    cases f p <;> simp

theorem leMask_map (points : List (ℕ → ℝ)) (k : ℕ) (c : ℝ) :
    leMask (points.map fun p => p k) c = points.map fun p => decide (p k ≤ c) := by
  simp [leMask, Function.comp_def]

theorem geMask_map (points : List (ℕ → ℝ)) (k : ℕ) (c : ℝ) :
    geMask (points.map fun p => p k) c = points.map fun p => decide (c ≤ p k) := by
  simp [geMask, Function.comp_def]

theorem logicalOr_map (points : List (ℕ → ℝ)) (f g : (ℕ → ℝ) → Bool) :
    logicalOr (points.map f) (points.map g) = .ok (points.map fun p => f p || g p) := by
  unfold logicalOr
  rw [if_pos (by simp)]
  congr 1
  induction points with
  | nil => rfl
  | cons p l ih => simp [ih]

theorem logicalAnd_map (points : List (ℕ → ℝ)) (f g : (ℕ → ℝ) → Bool) :
    logicalAnd (points.map f) (points.map g) = .ok (points.map fun p => f p && g p) := by
  unfold logicalAnd
  rw [if_pos (by simp)]
  congr 1
  induction points with
  | nil => rfl
  | cons p l ih => simp [ih]

theorem isIndicator_of {region : (ℕ → ℝ) → Prop} {f : (ℕ → ℝ) → Bool} (h : ∀ p, f p = true ↔ region p)
    (points : List (ℕ → ℝ)) : IsIndicator region points (points.map fun p => if f p then 1 else 0) := by
  unfold IsIndicator
  rw [List.forall₂_map_right_iff]
  refine List.forall₂_same.2 fun p _ => ⟨fun hp => if_pos ((h p).2 hp), fun hp => if_neg fun hc => hp ((h p).1 hc)⟩

variable {x : PointRows} {points : List (ℕ → ℝ)}

/-- C53, 1D, both ends. -/
theorem C53_convex1 (hx : Columns x 1 points) :
    ∃ values, omegaConvex1 x = .ok values ∧ IsIndicator (Strips 1 0.2) points values := by
  have h0 := hx 0 (by norm_num)
  refine ⟨_, indicatorOf_run h0 (by rw [h0, leMask_map, geMask_map, logicalOr_map]), isIndicator_of (fun p => ?_) _⟩
  simp only [Strips, Bool.or_eq_true, decide_eq_true_eq, Nat.lt_one_iff, exists_eq_left]
  norm_num

/-- C53, 1D, left end. -/
theorem C53_noGcc1 (hx : Columns x 1 points) :
    ∃ values, omegaNoGcc1 x = .ok values ∧ IsIndicator (fun p => p 0 ≤ 0.2) points values := by
  have h0 := hx 0 (by norm_num)
  exact ⟨_, indicatorOf_run h0 (by rw [h0, leMask_map]), isIndicator_of (fun p => by simp) _⟩

/-- C53, 2D. -/
theorem C53_convex2 (hx : Columns x 2 points) :
    ∃ values, omegaConvex2 x = .ok values ∧ IsIndicator (Strips 2 0.2) points values := by
  have h0 := hx 0 (by norm_num)
  have h1 := hx 1 (by norm_num)
  refine ⟨_, indicatorOf_run (f := fun p => decide (p 0 ≤ 0.2) || (decide (0.8 ≤ p 0) || (decide (0.8 ≤ p 1) ||
    decide (p 1 ≤ 0.2)))) h0 ?_, isIndicator_of (fun p => ?_) _⟩
  · simp only [h0, h1, leMask_map, geMask_map, logicalOr_map, bind, Except.bind]
  · simp only [Strips, Bool.or_eq_true, decide_eq_true_eq]
    norm_num
    constructor
    · rintro (h | h | h | h)
      · exact ⟨0, by norm_num, .inl h⟩
      · exact ⟨0, by norm_num, .inr h⟩
      · exact ⟨1, by norm_num, .inr h⟩
      · exact ⟨1, by norm_num, .inl h⟩
    · rintro ⟨k, hk, h | h⟩ <;> interval_cases k <;> tauto

/-- C53, 3D, all sides. -/
theorem C53_gcc3 (d : ℝ) (hx : Columns x 3 points) :
    ∃ values, omegaGcc3 d x = .ok values ∧ IsIndicator (Strips 3 d) points values := by
  have h0 := hx 0 (by norm_num)
  have h1 := hx 1 (by norm_num)
  have h2 := hx 2 (by norm_num)
  refine ⟨_, indicatorOf_run (f := fun p => decide (p 0 ≤ d) || (decide (1.0 - d ≤ p 0) || (decide (1.0 - d ≤ p 1) ||
    (decide (p 1 ≤ d) || (decide (p 2 ≤ d) || decide (1.0 - d ≤ p 2)))))) h0 ?_, isIndicator_of (fun p => ?_) _⟩
  · simp only [h0, h1, h2, leMask_map, geMask_map, logicalOr_map, bind, Except.bind]
  · simp only [Strips, Bool.or_eq_true, decide_eq_true_eq]
    norm_num
    constructor
    · rintro (h | h | h | h | h | h)
      · exact ⟨0, by norm_num, .inl h⟩
      · exact ⟨0, by norm_num, .inr (by linarith)⟩
      · exact ⟨1, by norm_num, .inr (by linarith)⟩
      · exact ⟨1, by norm_num, .inl h⟩
      · exact ⟨2, by norm_num, .inl h⟩
      · exact ⟨2, by norm_num, .inr (by linarith)⟩
    · rintro ⟨k, hk, h | h⟩ <;> interval_cases k <;> tauto

/-- C53, 3D, one side. -/
theorem C53_noGcc3 (d : ℝ) (hx : Columns x 3 points) :
    ∃ values, omegaNoGcc3 d x = .ok values ∧ IsIndicator (fun p => 0 ≤ p 0 ∧ p 0 ≤ d) points values := by
  have h0 := hx 0 (by norm_num)
  refine ⟨_, indicatorOf_run h0 (by rw [h0, leMask_map, geMask_map, logicalAnd_map]), isIndicator_of (fun p => ?_) _⟩
  simp only [Bool.and_eq_true, decide_eq_true_eq]
  norm_num
  exact and_comm

theorem uflConditional_iff {c : UflCond} {p : ℕ → ℝ} {region : (ℕ → ℝ) → Prop} (h : c.eval p = true ↔ region p) :
    IsIndicatorAt region p (uflConditional c p) :=
  ⟨fun hp => if_pos (h.2 hp), fun hp => if_neg fun hc => hp (h.1 hc)⟩

/-- The outer strips without the inner faces. -/
def OpenStrips (dim : ℕ) (a : ℝ) (p : ℕ → ℝ) : Prop := ∃ k < dim, p k < a ∨ 1 - a < p k

/-- C53, 3D: the UFL versions; the one for all sides leaves the inner faces out. -/
theorem C53_ufl (d : ℝ) (p : ℕ → ℝ) :
    IsIndicatorAt (OpenStrips 3 d) p (uflConditional (uflGcc3 d) p) ∧
    IsIndicatorAt (fun p => 0 ≤ p 0 ∧ p 0 ≤ d) p (uflConditional (uflNoGcc3 d) p) := by
  constructor
  · apply uflConditional_iff
    simp only [uflGcc3, UflCond.eval, Bool.not_eq_true', Bool.and_eq_false_iff, decide_eq_false_iff_not, not_le, OpenStrips]
    norm_num
    constructor
    · rintro ((h | h) | (h | h) | h | h)
      · exact ⟨0, by norm_num, .inl h⟩
      · exact ⟨0, by norm_num, .inr h⟩
      · exact ⟨1, by norm_num, .inl h⟩
      · exact ⟨1, by norm_num, .inr h⟩
      · exact ⟨2, by norm_num, .inl h⟩
      · exact ⟨2, by norm_num, .inr h⟩
    · rintro ⟨k, hk, h | h⟩ <;> interval_cases k <;> tauto
  · apply uflConditional_iff
    simp only [uflNoGcc3, UflCond.eval, Bool.and_eq_true, decide_eq_true_eq]
    norm_num
    exact and_comm

/-- C53, 3D: at every point without a coordinate equal to `d` or `1 - d` the two versions agree; at a point of the
closed inner cube with such a coordinate the callable gives 1 and the UFL version 0. -/
theorem C53_agree (d : ℝ) (p : ℕ → ℝ) :
    ((∀ k < 3, p k ≠ d ∧ p k ≠ 1 - d) → omegaGcc3 d (fun k => [p k]) = .ok [uflConditional (uflGcc3 d) p]) ∧
    ((∀ k < 3, d ≤ p k ∧ p k ≤ 1 - d) → (∃ k < 3, p k = d ∨ p k = 1 - d) →
      omegaGcc3 d (fun k => [p k]) = .ok [1] ∧ uflConditional (uflGcc3 d) p = 0) := by
  obtain ⟨values, h1, h2⟩ := C53_gcc3 (x := fun k => [p k]) (points := [p]) d (fun k _ => rfl)
  obtain ⟨v, rfl⟩ : ∃ v, values = [v] := by
    have := h2.length_eq
    exact List.length_eq_one_iff.1 this.symm
  have hv : IsIndicatorAt (Strips 3 d) p v := by
    unfold IsIndicator at h2
    simpa using h2
  have hu := (C53_ufl d p).1
  rw [h1]
  constructor
  · intro h
    have hiff : OpenStrips 3 d p ↔ Strips 3 d p := by
      constructor
      · rintro ⟨k, hk, h1 | h1⟩
        · exact ⟨k, hk, .inl h1.le⟩
        · exact ⟨k, hk, .inr h1.le⟩
      · rintro ⟨k, hk, h1 | h1⟩
        · exact ⟨k, hk, .inl (lt_of_le_of_ne h1 (h k hk).1)⟩
        · exact ⟨k, hk, .inr (lt_of_le_of_ne h1 (Ne.symm (h k hk).2))⟩
    by_cases hs : Strips 3 d p
    · rw [hv.1 hs, hu.1 (hiff.2 hs)]
    · rw [hv.2 hs, hu.2 (mt hiff.1 hs)]
  · rintro h ⟨k, hk, h1⟩
    rw [hv.1, hu.2]
    · exact ⟨rfl, rfl⟩
    · rintro ⟨j, hj, h2 | h2⟩
      · have := (h j hj).1; linarith
      · have := (h j hj).2; linarith
    · rcases h1 with h1 | h1
      · exact ⟨k, hk, .inl h1.le⟩
      · exact ⟨k, hk, .inr h1.ge⟩

/-- Three points of the square: in the data region, outside it, and on its inner face. -/
example : ∃ values, omegaConvex2 (fun k => [fun _ => (0.1 : ℝ), fun _ => 0.5, fun i => if i = 0 then 0.2 else 0.5].map
    fun p => p k) = .ok values ∧ values = [1, 0, 1] := by
  obtain ⟨v, h1, h2⟩ := C53_convex2 (x := fun k => [fun _ => (0.1 : ℝ), fun _ => 0.5,
    fun i => if i = 0 then 0.2 else 0.5].map fun p => p k) (fun k _ => rfl)
  refine ⟨v, h1, ?_⟩
  unfold IsIndicator at h2
  have ha : Strips 2 0.2 (fun _ => (0.1 : ℝ)) := ⟨0, by norm_num, .inl (by norm_num)⟩
  have hb : ¬ Strips 2 0.2 (fun _ => (0.5 : ℝ)) := by rintro ⟨k, -, h | h⟩ <;> norm_num at h
  have hc : Strips 2 0.2 (fun i : ℕ => if i = 0 then (0.2 : ℝ) else 0.5) := ⟨0, by norm_num, .inl (by norm_num)⟩
  rcases h2 with _ | ⟨h3, _ | ⟨h4, _ | ⟨h5, ⟨⟩⟩⟩⟩
  rw [h3.1 ha, h4.2 hb, h5.1 hc]

/-- A point on an inner face. -/
example : (∀ k < 3, (0.25 : ℝ) ≤ (fun _ : ℕ => (0.25 : ℝ)) k ∧ (fun _ : ℕ => (0.25 : ℝ)) k ≤ 1 - 0.25) := by
  intro k _; norm_num

end Dxss
