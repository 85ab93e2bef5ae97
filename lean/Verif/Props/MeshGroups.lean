import Verif.Model.Meshes
import Mathlib.Data.List.Nodup
import Mathlib.Data.List.Range
import Mathlib.Tactic.Linarith
import Mathlib.Tactic.NormNum
import Mathlib.Tactic.IntervalCases
import Mathlib.Tactic.Tauto

/-!
# C52, C55, C59, C60: physical groups and the rectangles of the bottom-data mesh
-/

namespace Dxss

/-! ## C52 -/

/-- A point is close to another, coordinate by coordinate, within numpy's default tolerances. -/
def NearPoint (c p : ℝ × ℝ × ℝ) : Prop :=
  |c.1 - p.1| ≤ 1e-8 + 1e-5 * |p.1| ∧ |c.2.1 - p.2.1| ≤ 1e-8 + 1e-5 * |p.2.1| ∧
    |c.2.2 - p.2.2| ≤ 1e-8 + 1e-5 * |p.2.2|

theorem allclose3_iff (c p : ℝ × ℝ × ℝ) : allclose3 c p = true ↔ NearPoint c p := by
  simp [allclose3, isclose, NearPoint, and_assoc]

/-- The two target points of the convex builders are not close to one another. -/
theorem near_exclusive {c : ℝ × ℝ × ℝ} {y y' : ℝ} (h0 : 0 ≤ y) (h1 : y + 1e-4 < y') (h2 : y' ≤ 1)
    (h : NearPoint c (0.5, y, 0)) (h' : NearPoint c (0.5, y', 0)) : False := by
  obtain ⟨-, ha, -⟩ := h
  obtain ⟨-, hb, -⟩ := h'
  simp only at ha hb
  rw [abs_of_nonneg h0] at ha
  rw [abs_of_nonneg (show (0 : ℝ) ≤ y' by linarith)] at hb
  rw [abs_le] at ha hb
  norm_num at ha hb h1
  linarith [ha.1, ha.2, hb.1, hb.2]

/-- The region markers of `create_initial_mesh_convex` and `get_mesh_hierarchy`. -/
def RegionConvex (c : ℝ × ℝ × ℝ) (marker : ℕ) : Prop :=
  (marker = 2 ∧ NearPoint c (0.5, 0.6, 0)) ∨ (marker = 3 ∧ NearPoint c (0.5, 0.975, 0)) ∨
  (marker = 1 ∧ ¬ NearPoint c (0.5, 0.6, 0) ∧ ¬ NearPoint c (0.5, 0.975, 0))

/-- The region markers of `get_mesh_hierarchy_nonconvex`. -/
def RegionNonconvex (c : ℝ × ℝ × ℝ) (marker : ℕ) : Prop :=
  (marker = 1 ∧ NearPoint c (0.5, 0.275, 0)) ∨ (marker = 2 ∧ NearPoint c (0.5, 0.5, 0)) ∨
  (marker = 3 ∧ ¬ NearPoint c (0.5, 0.275, 0) ∧ ¬ NearPoint c (0.5, 0.5, 0))

/-- C52: the marker is the only one that fits the centre of mass (the cases exclude one another). -/
theorem C52_marker (c : ℝ × ℝ × ℝ) (m : ℕ) :
    (RegionConvex c m ↔ m = markConvex c) ∧ (RegionNonconvex c m ↔ m = markNonconvex c) := by
  constructor
  · have e1 := allclose3_iff c (0.5, 0.6, 0)
    have e2 := allclose3_iff c (0.5, 0.975, 0)
    unfold RegionConvex markConvex
    by_cases h1 : NearPoint c (0.5, 0.6, 0)
    · have h2 : ¬ NearPoint c (0.5, 0.975, 0) := fun h2 =>
        near_exclusive (y := 0.6) (y' := 0.975) (by norm_num) (by norm_num) (by norm_num) h1 h2
      simp only [h1, h2, e1.2 h1, if_true, and_true, and_false, not_true_eq_false, false_and, or_false]
    · by_cases h2 : NearPoint c (0.5, 0.975, 0)
      · simp only [h1, h2, mt e1.1 h1, e2.2 h2, if_true, and_true, and_false, not_true_eq_false,
          or_false, false_or, Bool.false_eq_true, if_false]
      · simp only [h1, h2, mt e1.1 h1, mt e2.1 h2, and_true, and_false, not_false_eq_true,
          false_or, Bool.false_eq_true, if_false]
  · have e1 := allclose3_iff c (0.5, 0.275, 0)
    have e2 := allclose3_iff c (0.5, 0.5, 0)
    unfold RegionNonconvex markNonconvex
    by_cases h1 : NearPoint c (0.5, 0.275, 0)
    · have h2 : ¬ NearPoint c (0.5, 0.5, 0) := fun h2 =>
        near_exclusive (y := 0.275) (y' := 0.5) (by norm_num) (by norm_num) (by norm_num) h1 h2
      simp only [h1, h2, e1.2 h1, if_true, and_true, and_false, not_true_eq_false, false_and, or_false]
    · by_cases h2 : NearPoint c (0.5, 0.5, 0)
      · simp only [h1, h2, mt e1.1 h1, e2.2 h2, if_true, and_true, and_false, not_true_eq_false,
          or_false, false_or, Bool.false_eq_true, if_false]
      · simp only [h1, h2, mt e1.1 h1, mt e2.1 h2, and_true, and_false, not_false_eq_true,
          false_or, Bool.false_eq_true, if_false]

theorem mark_range (c : ℝ × ℝ × ℝ) :
    (markConvex c = 1 ∨ markConvex c = 2 ∨ markConvex c = 3) ∧
    (markNonconvex c = 1 ∨ markNonconvex c = 2 ∨ markNonconvex c = 3) := by
  unfold markConvex markNonconvex
  constructor <;> split <;> [skip; split; skip; split] <;> simp

/-- C52: every surface is in exactly one group; its marker is the one that fits its centre of mass. -/
theorem C52_surfaces {mark : ℝ × ℝ × ℝ → ℕ} {surfaces : List (ℕ × ℝ × ℝ × ℝ)} (hnd : (surfaces.map (·.1)).Nodup)
    {s : ℕ × ℝ × ℝ × ℝ} (hs : s ∈ surfaces) :
    (∃! g : Group, g ∈ regionGroups mark surfaces ∧ s.1 ∈ g.tags) ∧
    ∀ g ∈ regionGroups mark surfaces, s.1 ∈ g.tags → g.dim = 2 ∧ g.tags = [s.1] ∧ g.marker = mark s.2 := by
  have key : ∀ g ∈ regionGroups mark surfaces, s.1 ∈ g.tags → g = ⟨2, [s.1], mark s.2⟩ := by
    intro g hg hmem
    obtain ⟨s', hs', rfl⟩ := List.mem_map.1 hg
    simp only [List.mem_singleton] at hmem
    rw [List.inj_on_of_nodup_map hnd hs hs' hmem]
  refine ⟨⟨⟨2, [s.1], mark s.2⟩, ⟨List.mem_map.2 ⟨s, hs, rfl⟩, by simp⟩, fun g hg => key g hg.1 hg.2⟩, fun g hg hm => ?_⟩
  rw [key g hg hm]
  exact ⟨rfl, rfl, rfl⟩

/-- C52: no group mentions anything but a surface of the model. -/
theorem C52_only {mark : ℝ × ℝ × ℝ → ℕ} {surfaces : List (ℕ × ℝ × ℝ × ℝ)} :
    (regionGroups mark surfaces).length = surfaces.length ∧
    ∀ g ∈ regionGroups mark surfaces, ∃ s ∈ surfaces, g = ⟨2, [s.1], mark s.2⟩ := by
  refine ⟨by simp [regionGroups], fun g hg => ?_⟩
  obtain ⟨s, hs, rfl⟩ := List.mem_map.1 hg
  exact ⟨s, hs, rfl⟩

/-- The centre of mass of a line is within tolerance of one of the four sides of the unit square. -/
def NearSide (c : ℝ × ℝ × ℝ) : Prop :=
  |c.1| ≤ 1e-8 ∨ |c.1 - 1| ≤ 1e-8 + 1e-5 ∨ |c.2.1| ≤ 1e-8 ∨ |c.2.1 - 1| ≤ 1e-8 + 1e-5

theorem onSide_iff (c : ℝ × ℝ × ℝ) : onSide c = true ↔ NearSide c := by
  simp [onSide, isclose, NearSide, or_assoc]

/-- C52: a line is in the boundary group iff its centre of mass is within tolerance of a side; the group has marker 1
and keeps the order of the lines. -/
theorem C52_boundary (lines : List (ℕ × ℝ × ℝ × ℝ)) :
    (boundaryGroup lines).dim = 1 ∧ (boundaryGroup lines).marker = 1 ∧
    (boundaryGroup lines).tags.Sublist (lines.map (·.1)) ∧
    ((lines.map (·.1)).Nodup → ∀ l ∈ lines, l.1 ∈ (boundaryGroup lines).tags ↔ NearSide l.2) := by
  have hfold : (boundaryGroup lines).tags = (lines.filter fun l => onSide l.2).map (·.1) := by
    have : ∀ acc : List ℕ, lines.foldl (fun acc l => if onSide l.2 then acc ++ [l.1] else acc) acc
        = acc ++ (lines.filter fun l => onSide l.2).map (·.1) := by
      induction lines with
      | nil => intro acc; simp
      | cons l ls ih =>
        intro acc
        rw [List.foldl_cons, ih]
        by_cases h : onSide l.2 = true <;> simp [h]
    exact (this []).trans (by simp)
  refine ⟨rfl, rfl, ?_, fun hnd l hl => ?_⟩
  · rw [hfold]
    exact List.Sublist.map _ List.filter_sublist
  · rw [hfold, ← onSide_iff, List.mem_map]
    constructor
    · rintro ⟨l', h1, h2⟩
      rw [List.mem_filter] at h1
      rw [← List.inj_on_of_nodup_map hnd h1.1 hl h2]
      exact h1.2
    · intro h
      exact ⟨l, List.mem_filter.2 ⟨hl, h⟩, rfl⟩

/-- C52: in the generic builders surface number `i` (from 1) gets marker `i`, so all markers differ. -/
theorem C52_counted (surfaces : List ℕ) :
    (∀ i : ℕ, (countedGroups surfaces)[i]? = (surfaces[i]?).map fun s => ⟨2, [s], i + 1⟩) ∧
    ((countedGroups surfaces).map Group.marker).Nodup := by
  have main : ∀ (l : List ℕ) (k : ℕ) (acc : List Group),
      (l.foldl (fun (acc : ℕ × List Group) s => (acc.1 + 1, acc.2 ++ [⟨2, [s], acc.1⟩])) (k, acc)).2
        = acc ++ (l.zipIdx k).map fun p => ⟨2, [p.1], p.2⟩ := by
    intro l
    induction l with
    | nil => intro k acc; simp
    | cons s l ih => intro k acc; rw [List.foldl_cons, ih]; simp
  have h : countedGroups surfaces = (surfaces.zipIdx 1).map fun p => ⟨2, [p.1], p.2⟩ := by
    unfold countedGroups
    rw [main]
    rfl
  constructor
  · intro i
    rw [h, List.getElem?_map, List.getElem?_zipIdx]
    rcases surfaces[i]? with _ | s
    · rfl
    · simp [Nat.add_comm]
  · rw [h, List.map_map]
    have : (Group.marker ∘ fun p : ℕ × ℕ => (⟨2, [p.1], p.2⟩ : Group)) = Prod.snd := rfl
    rw [this, List.zipIdx_map_snd]
    exact List.nodup_range'

example : RegionConvex (0.5, 0.6, 0) 2 := .inl ⟨rfl, by simp [NearPoint]; norm_num⟩
example : (boundaryGroup [(7, 0.5, 1, 0), (8, 0.5, 0.5, 0), (9, 0, 0.5, 0)]).tags = [7, 9] := by
  simp [boundaryGroup, onSide, isclose]; norm_num

/-! ## C55 -/

/-- A point of a closed rectangle. -/
def Rect.Mem (r : Rect) (a b : ℝ) : Prop := r.x ≤ a ∧ a ≤ r.x + r.dx ∧ r.y ≤ b ∧ b ≤ r.y + r.dy

/-- A point of its interior. -/
def Rect.MemInt (r : Rect) (a b : ℝ) : Prop := r.x < a ∧ a < r.x + r.dx ∧ r.y < b ∧ b < r.y + r.dy

/-- C55: the rectangles other than the upper target block (index 4) cover the unit square. -/
theorem C55_cover {eta : ℝ} {a b : ℝ} (ha : 0 ≤ a ∧ a ≤ 1) (hb : 0 ≤ b ∧ b ≤ 1) :
    ∃ i r, i ≠ 4 ∧ (bottomRects eta)[i]? = some r ∧ r.Mem a b := by
  rcases le_total b 0.25 with hb1 | hb1
  · refine ⟨0, _, by norm_num, rfl, ?_⟩
    unfold Rect.Mem; norm_num at hb1 ⊢; exact ⟨ha.1, ha.2, hb.1, hb1⟩
  rcases le_total b eta with hb2 | hb2
  · rcases le_total a 0.25 with ha1 | ha1
    · refine ⟨1, _, by norm_num, rfl, ?_⟩
      unfold Rect.Mem; norm_num at *; exact ⟨ha.1, ha1, hb1, hb2⟩
    rcases le_total a 0.75 with ha2 | ha2
    · refine ⟨3, _, by norm_num, rfl, ?_⟩
      unfold Rect.Mem; norm_num at *; exact ⟨ha1, ha2, hb1, hb2⟩
    · refine ⟨2, _, by norm_num, rfl, ?_⟩
      unfold Rect.Mem; norm_num at *; exact ⟨ha2, ha.2, hb1, hb2⟩
  · rcases le_total a 0.25 with ha1 | ha1
    · refine ⟨5, _, by norm_num, rfl, ?_⟩
      unfold Rect.Mem; norm_num at *; exact ⟨ha.1, ha1, hb2, hb.2⟩
    rcases le_total a 0.75 with ha2 | ha2
    · refine ⟨6, _, by norm_num, rfl, ?_⟩
      unfold Rect.Mem; norm_num at *; exact ⟨ha1, ha2, hb2, hb.2⟩
    · refine ⟨7, _, by norm_num, rfl, ?_⟩
      unfold Rect.Mem; norm_num at *; exact ⟨ha2, ha.2, hb2, hb.2⟩

/-- C55: all eight rectangles have non-negative sides and lie in the unit square. -/
theorem C55_inside {eta : ℝ} (h0 : 0.25 ≤ eta) (h1 : eta ≤ 0.9) {r : Rect} (hr : r ∈ bottomRects eta) :
    0 ≤ r.dx ∧ 0 ≤ r.dy ∧ ∀ a b, r.Mem a b → 0 ≤ a ∧ a ≤ 1 ∧ 0 ≤ b ∧ b ≤ 1 := by
  norm_num at h0 h1
  simp only [bottomRects, List.mem_cons, List.not_mem_nil, or_false] at hr
  rcases hr with rfl | rfl | rfl | rfl | rfl | rfl | rfl | rfl <;>
    (refine ⟨by norm_num, by norm_num <;> linarith, fun a b h => ?_⟩
     obtain ⟨ha, hb, hc, hd⟩ := h
     norm_num at ha hb hc hd
     refine ⟨?_, ?_, ?_, ?_⟩ <;> linarith)

/-- C55: two different ones of the rectangles other than the upper target block have no inner point in common. -/
theorem C55_disjoint {eta : ℝ} (h0 : 0.25 ≤ eta) {i j : ℕ} (hij : i ≠ j) (hi : i ≠ 4) (hj : j ≠ 4)
    {r r' : Rect} (hr : (bottomRects eta)[i]? = some r) (hr' : (bottomRects eta)[j]? = some r') (a b : ℝ) :
    ¬ (r.MemInt a b ∧ r'.MemInt a b) := by
  norm_num at h0
  have hi8 : i < 8 := by
    by_contra hc
    rw [List.getElem?_eq_none (by simp [bottomRects]; omega)] at hr
    cases hr
  have hj8 : j < 8 := by
    by_contra hc
    rw [List.getElem?_eq_none (by simp [bottomRects]; omega)] at hr'
    cases hr'
  rintro ⟨⟨a1, a2, a3, a4⟩, ⟨b1, b2, b3, b4⟩⟩
  interval_cases i <;> interval_cases j <;> first
    | exact absurd rfl hij
    | exact absurd rfl hi
    | exact absurd rfl hj
    | (simp only [bottomRects, List.getElem?_cons_zero, List.getElem?_cons_succ, Option.some.injEq] at hr hr'
       subst hr hr'
       norm_num at a1 a2 a3 a4 b1 b2 b3 b4
       linarith)

/-- The upper target block lies in the upper middle rectangle, so it has to be excluded above. -/
theorem C55_target {eta : ℝ} {a b : ℝ} :
    ∀ r r', (bottomRects eta)[4]? = some r → (bottomRects eta)[6]? = some r' → r.Mem a b → r'.Mem a b := by
  intro r r' hr hr' h
  simp only [bottomRects, List.getElem?_cons_zero, List.getElem?_cons_succ, Option.some.injEq] at hr hr'
  subst hr hr'
  unfold Rect.Mem at *
  norm_num at h ⊢
  exact ⟨h.1, h.2.1, h.2.2.1, by linarith [h.2.2.2]⟩

example : ∃ i r, i ≠ 4 ∧ (bottomRects 0.6)[i]? = some r ∧ r.Mem 0.3 0.7 :=
  C55_cover (by norm_num) (by norm_num)

/-! ## C59: the two target blocks of the mesh fitted to a disc -/

/-- The full C59: the lower and the upper target block meet only on the interface `y = eta`. -/
def C59_statement : Prop := ∀ eta : ℝ, 0.25 < eta → eta < 0.95 → ∀ a b : ℝ,
  (discRects eta).bMinus.Mem a b → (discRects eta).bPlus.Mem a b → b = eta

/-- C59 is violated for every `eta`: the upper block starts at `eta - 0.25`, so that the blocks share inner points. -/
theorem C59_overlap {eta : ℝ} (h0 : 0.25 < eta) (h1 : eta < 0.95) :
    ∃ a b : ℝ, (discRects eta).bMinus.MemInt a b ∧ (discRects eta).bPlus.MemInt a b := by
  refine ⟨0.5, (max (eta - 0.25) 0.25 + eta) / 2, ?_, ?_⟩ <;>
  · unfold Rect.MemInt discRects
    norm_num at h0 h1 ⊢
    rcases max_cases (eta - 1 / 4) (1 / 4) with ⟨e, h2⟩ | ⟨e, h2⟩ <;> rw [e] <;>
      (constructor <;> linarith)

theorem C59_violated : ¬ C59_statement := by
  intro h
  have := h 0.6 (by norm_num) (by norm_num) 0.5 0.5 (by unfold Rect.Mem discRects; norm_num)
    (by unfold Rect.Mem discRects; norm_num)
  norm_num at this

/-- C59, what holds: the pieces (the outer block without its hole, the two target blocks, the top) cover the unit square
and stay inside it, and the lower block ends on the interface. -/
theorem C59_partial {eta : ℝ} (h0 : 0.25 ≤ eta) (h1 : eta ≤ 0.95) (a b : ℝ) :
    ((0 ≤ a ∧ a ≤ 1 ∧ 0 ≤ b ∧ b ≤ 1) ↔
      ((discRects eta).r1.Mem a b ∧ ¬ (discRects eta).r2.MemInt a b) ∨ (discRects eta).bMinus.Mem a b ∨
        (discRects eta).bPlus.Mem a b ∨ (discRects eta).top.Mem a b) ∧
    (discRects eta).bMinus.y + (discRects eta).bMinus.dy = eta := by
  unfold Rect.Mem Rect.MemInt discRects
  norm_num at h0 h1 ⊢
  constructor
  · rintro ⟨h2, h3, h4, h5⟩
    rcases le_total b eta with hb | hb
    · by_cases hc : 1 / 10 < a ∧ a < 9 / 10 ∧ 1 / 4 < b ∧ b < eta
      · right; left
        exact ⟨hc.1.le, hc.2.1.le, hc.2.2.1.le, hc.2.2.2.le⟩
      · left
        push Not at hc
        exact ⟨⟨h2, h3, h4, hb⟩, hc⟩
    · right; right; right
      exact ⟨h2, h3, by linarith, h5⟩
  · rintro (⟨⟨h2, h3, h4, h5⟩, -⟩ | ⟨h2, h3, h4, h5⟩ | ⟨h2, h3, h4, h5⟩ | ⟨h2, h3, h4, h5⟩) <;>
      refine ⟨?_, ?_, ?_, ?_⟩ <;> linarith

/-! ## C60: boundary lines -/

/-- A point is on the boundary of the rectangle `[lo, hi]²`. -/
def OnBoundary (lo hi : ℝ) (c : ℝ × ℝ × ℝ) : Prop :=
  lo ≤ c.1 ∧ c.1 ≤ hi ∧ lo ≤ c.2.1 ∧ c.2.1 ≤ hi ∧ (c.1 = lo ∨ c.1 = hi ∨ c.2.1 = lo ∨ c.2.1 = hi)

/-- The boundary group of a builder for the domain `[lo, hi]²` consists of the lines on the boundary of the domain. -/
def BoundaryRight (lo hi : ℝ) (lines : List (ℕ × ℝ × ℝ × ℝ)) : Prop :=
  ∀ l ∈ lines, l.1 ∈ (boundaryGroup lines).tags ↔ OnBoundary lo hi l.2

/-- The full C60 for `get_mesh_inclusion` (domain `[-1.5, 1.5]²`). -/
def C60_statement : Prop := ∀ lines : List (ℕ × ℝ × ℝ × ℝ), (lines.map (·.1)).Nodup → BoundaryRight (-1.5) 1.5 lines

/-- C60 is violated in both directions: the piece of the upper side from `(-1.5, 1.5)` to `(-1.25, 1.5)` is missed, and
the left side of the target block, inside the domain, is put in the group. -/
theorem C60_violated : ¬ C60_statement ∧
    ∃ lines : List (ℕ × ℝ × ℝ × ℝ), (lines.map (·.1)).Nodup ∧
      (∃ l ∈ lines, OnBoundary (-1.5) 1.5 l.2 ∧ l.1 ∉ (boundaryGroup lines).tags) ∧
      (∃ l ∈ lines, ¬ OnBoundary (-1.5) 1.5 l.2 ∧ l.1 ∈ (boundaryGroup lines).tags) := by
  have hnd : (([(1, -1.375, 1.5, 0), (2, -0.5, 0, 0)] : List (ℕ × ℝ × ℝ × ℝ)).map (·.1)).Nodup := by simp
  have ha := (C52_boundary [(1, -1.375, 1.5, 0), (2, -0.5, 0, 0)]).2.2.2 hnd (1, -1.375, 1.5, 0) (by simp)
  have hb := (C52_boundary [(1, -1.375, 1.5, 0), (2, -0.5, 0, 0)]).2.2.2 hnd (2, -0.5, 0, 0) (by simp)
  have h1 : ¬ NearSide (-1.375, 1.5, 0) := by
    unfold NearSide
    rintro (h | h | h | h) <;> rw [abs_le] at h <;> norm_num at h
  have h2 : NearSide (-0.5, 0, 0) := by
    unfold NearSide
    right; right; left
    norm_num
  have h3 : OnBoundary (-1.5) 1.5 (-1.375, 1.5, 0) := by unfold OnBoundary; norm_num
  have h4 : ¬ OnBoundary (-1.5) 1.5 (-0.5, 0, 0) := by unfold OnBoundary; norm_num
  refine ⟨fun h => ?_, _, hnd, ⟨_, by simp, h3, fun hc => h1 (ha.1 hc)⟩, ⟨_, by simp, h4, hb.2 h2⟩⟩
  exact h1 (ha.1 ((h _ hnd _ (by simp)).2 h3))

/-- C60, what holds: on the unit square, with the centres of mass of all inner lines more than `2e-5` away from the
sides, the group consists of the boundary lines. -/
theorem C60_unit_partial {lines : List (ℕ × ℝ × ℝ × ℝ)} (hnd : (lines.map (·.1)).Nodup)
    (hin : ∀ l ∈ lines, OnBoundary 0 1 l.2 ∨
      (2e-5 < l.2.1 ∧ l.2.1 < 1 - 2e-5 ∧ 2e-5 < l.2.2.1 ∧ l.2.2.1 < 1 - 2e-5)) : BoundaryRight 0 1 lines := by
  intro l hl
  rw [(C52_boundary lines).2.2.2 hnd l hl]
  constructor
  · intro h
    rcases hin l hl with hb | ⟨h1, h2, h3, h4⟩
    · exact hb
    · exfalso
      rcases h with h | h | h | h <;> rw [abs_le] at h <;> norm_num at h h1 h2 h3 h4 <;> linarith [h.1, h.2]
  · rintro ⟨-, -, -, -, h | h | h | h⟩
    · exact .inl (by rw [h]; norm_num)
    · exact .inr (.inl (by rw [h]; norm_num))
    · exact .inr (.inr (.inl (by rw [h]; norm_num)))
    · exact .inr (.inr (.inr (by rw [h]; norm_num)))

example : BoundaryRight 0 1 [(7, 0.5, 1, 0), (8, 0.5, 0.5, 0), (9, 0, 0.5, 0)] :=
  C60_unit_partial (by simp) (by
    intro l hl
    simp only [List.mem_cons, List.not_mem_nil, or_false] at hl
    rcases hl with rfl | rfl | rfl
    · left; unfold OnBoundary; norm_num
    · right; norm_num
    · left; unfold OnBoundary; norm_num)

end Dxss
