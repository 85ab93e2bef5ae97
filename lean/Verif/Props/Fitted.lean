import Verif.Model.Fitted
import Verif.Props.Indicators
import Verif.Props.Regions

/-!
# C82: the meshes of the scripts resolve the data domains that are marked as fitted
-/

namespace Dxss
open MeasureTheory Set

/-- Interpolating `f` gives, cell by cell, the indicator of the region at every inner point of the cell. -/
def Resolves (f : PointRows → Py (List ℝ)) (region : (ℕ → ℝ) → Prop) (cells : List Cell) : Prop :=
  ∃ values, interpolateDG0 f cells = .ok values ∧
    List.Forall₂ (fun c v => ∀ p ∈ c.inner, IsIndicatorAt region p v) cells values

/-- It suffices that the region does not separate an inner point from the midpoint. -/
theorem resolves_of {f : PointRows → Py (List ℝ)} {region : (ℕ → ℝ) → Prop} {cells : List Cell} {dim : ℕ}
    (hf : ∀ {x : PointRows} {points : List (ℕ → ℝ)}, Columns x dim points →
      ∃ values, f x = .ok values ∧ IsIndicator region points values)
    (h : ∀ c ∈ cells, ∀ p ∈ c.inner, region p ↔ region c.mid) : Resolves f region cells := by
  obtain ⟨values, h1, h2⟩ := hf (x := fun k => cells.map fun c => c.mid k) (points := cells.map (·.mid))
    fun k _ => by simp [Function.comp_def]
  refine ⟨values, h1, ?_⟩
  unfold IsIndicator at h2
  rw [List.forall₂_map_left_iff] at h2
  refine List.Forall₂.imp (R := fun c v => c ∈ cells ∧ IsIndicatorAt region c.mid v) ?_ ?_
  · rintro c v ⟨hc, h3, h4⟩ p hp
    have := h c hc p hp
    exact ⟨fun hr => h3 (this.1 hr), fun hr => h4 fun hm => hr (this.2 hm)⟩
  · clear h h1
    induction h2 with
    | nil => exact .nil
    | cons ha hl ih =>
      refine .cons ⟨by simp, ha⟩ (ih.imp fun _ _ h => ⟨List.mem_cons_of_mem _ h.1, h.2⟩)

/-- A grid point does not separate points of an open grid cell. -/
theorem grid_le {n k : ℕ} (hn : 0 < n) {a i : ℝ} (hi : ∃ m : ℕ, i = m) (ha : a = k / n) {x y : ℝ}
    (hx : i / n < x ∧ x < (i + 1) / n) (hy : i / n < y ∧ y < (i + 1) / n) : (x ≤ a ↔ y ≤ a) ∧ (a ≤ x ↔ a ≤ y) := by
  obtain ⟨m, rfl⟩ := hi
  have hn' : (0 : ℝ) < n := by exact_mod_cast hn
  subst ha
  rcases Nat.lt_or_ge m k with h | h
  · have h' : ((m : ℝ) + 1) / n ≤ k / n := by
      gcongr; exact_mod_cast h
    refine ⟨iff_of_true ?_ ?_, iff_of_false ?_ ?_⟩ <;> linarith
  · have h' : (k : ℝ) / n ≤ m / n := by
      gcongr
    refine ⟨iff_of_false ?_ ?_, iff_of_true ?_ ?_⟩ <;> linarith

theorem mid_cell {n : ℕ} (hn : 0 < n) (i : ℝ) : i / n < (i + 1 / 2) / n ∧ (i + 1 / 2) / n < (i + 1) / n := by
  have hn' : (0 : ℝ) < n := by exact_mod_cast hn
  constructor <;> gcongr <;> linarith

/-- C82 in one dimension: with `5 N` intervals, both data domains of solve_1d.py. -/
theorem C82_interval {N : ℕ} (hN : 0 < N) :
    Resolves omegaNoGcc1 (fun p => p 0 ≤ 0.2) (intervalMesh (nx1 N)) ∧
    Resolves omegaConvex1 (Strips 1 0.2) (intervalMesh (nx1 N)) := by
  have hn : 0 < nx1 N := by unfold nx1; omega
  have hN' : (0 : ℝ) < N := by exact_mod_cast hN
  have h1 : (0.2 : ℝ) = (N : ℕ) / (nx1 N : ℕ) := by unfold nx1; push_cast; field_simp; norm_num
  have h2 : (1 - 0.2 : ℝ) = (4 * N : ℕ) / (nx1 N : ℕ) := by unfold nx1; push_cast; field_simp; norm_num
  constructor
  · refine resolves_of C53_noGcc1 fun c hc p hp => ?_
    simp only [intervalMesh, List.mem_map, List.mem_range] at hc
    obtain ⟨i, -, rfl⟩ := hc
    exact (grid_le hn ⟨i, rfl⟩ h1 hp (mid_cell hn i)).1
  · refine resolves_of C53_convex1 fun c hc p hp => ?_
    simp only [intervalMesh, List.mem_map, List.mem_range] at hc
    obtain ⟨i, -, rfl⟩ := hc
    simp only [Strips, Nat.lt_one_iff, exists_eq_left]
    rw [(grid_le hn ⟨i, rfl⟩ h1 hp (mid_cell hn i)).1, (grid_le hn ⟨i, rfl⟩ h2 hp (mid_cell hn i)).2]

/-- C82 in three dimensions: data width 1/4 and a number of cells divisible by 4, both data domains of solve_3d.py. -/
theorem C82_box {m : ℕ} (hm : 0 < m) :
    Resolves (omegaGcc3 0.25) (Strips 3 0.25) (boxMesh (4 * m)) ∧
    Resolves (omegaNoGcc3 0.25) (fun p => 0 ≤ p 0 ∧ p 0 ≤ 0.25) (boxMesh (4 * m)) := by
  have hn : 0 < 4 * m := by omega
  have hm' : (0 : ℝ) < m := by exact_mod_cast hm
  have h1 : (0.25 : ℝ) = (m : ℕ) / (4 * m : ℕ) := by push_cast; field_simp; norm_num
  have h2 : (1 - 0.25 : ℝ) = (3 * m : ℕ) / (4 * m : ℕ) := by push_cast; field_simp; norm_num
  have h3 : (0 : ℝ) = (0 : ℕ) / (4 * m : ℕ) := by simp
  have key : ∀ c ∈ boxMesh (4 * m), ∀ p ∈ c.inner, ∀ d < 3, (p d ≤ 0.25 ↔ c.mid d ≤ 0.25) ∧
      (1 - 0.25 ≤ p d ↔ 1 - 0.25 ≤ c.mid d) ∧ (0 ≤ p d ↔ 0 ≤ c.mid d) := by
    intro c hc p hp d hd
    simp only [boxMesh, List.mem_flatMap, List.mem_map, List.mem_range] at hc
    obtain ⟨i, -, j, -, k, -, rfl⟩ := hc
    have hi : ∃ l : ℕ, (if d = 0 then (i : ℝ) else if d = 1 then (j : ℝ) else k) = l := by
      split
      · exact ⟨i, rfl⟩
      split
      · exact ⟨j, rfl⟩
      · exact ⟨k, rfl⟩
    have h4 := hp d hd
    exact ⟨(grid_le hn hi h1 h4 (mid_cell hn _)).1, (grid_le hn hi h2 h4 (mid_cell hn _)).2,
      (grid_le hn hi h3 h4 (mid_cell hn _)).2⟩
  constructor
  · refine resolves_of (C53_gcc3 0.25) fun c hc p hp => ?_
    refine exists_congr fun d => and_congr_right fun hd => ?_
    rw [(key c hc p hp d hd).1, (key c hc p hp d hd).2.1]
  · refine resolves_of (C53_noGcc3 0.25) fun c hc p hp => ?_
    rw [(key c hc p hp 0 (by norm_num)).1, (key c hc p hp 0 (by norm_num)).2.2]

/-- The coarsest box mesh of solve_3d.py does not resolve either data domain: no cell-wise constant function is the
indicator. -/
theorem C82_box_two (f : PointRows → Py (List ℝ)) :
    ¬ Resolves f (Strips 3 0.25) (boxMesh 2) ∧ ¬ Resolves f (fun p => 0 ≤ p 0 ∧ p 0 ≤ 0.25) (boxMesh 2) := by
  have hc : (⟨{p | ∀ d < 3, 0 / (2 : ℝ) < p d ∧ p d < (0 + 1) / 2}, fun _ => (0 + 1 / 2) / 2⟩ : Cell) ∈ boxMesh 2 := by
    simp only [boxMesh, List.mem_flatMap, List.mem_map, List.mem_range]
    exact ⟨0, by norm_num, 0, by norm_num, 0, by norm_num, by simp⟩
  have both : ∀ region : (ℕ → ℝ) → Prop, region (fun _ => 0.2) → ¬ region (fun _ => 0.4) →
      ¬ Resolves f region (boxMesh 2) := by
    rintro region ha hb ⟨values, -, h⟩
    obtain ⟨i, hi, e⟩ := List.mem_iff_getElem.1 hc
    have hv := h.get hi (by rw [← h.length_eq]; exact hi)
    simp only [List.get_eq_getElem] at hv
    rw [e] at hv
    have v1 := (hv (fun _ => 0.2) (fun d _ => by norm_num)).1 ha
    have v0 := (hv (fun _ => 0.4) (fun d _ => by norm_num)).2 hb
    exact one_ne_zero (v1.symm.trans v0)
  constructor
  · refine both _ ⟨0, by norm_num, by norm_num⟩ ?_
    rintro ⟨d, -, h | h⟩ <;> norm_num at h
  · exact both _ (by norm_num) (by norm_num)

/-- C82: in solve_3d.py a data domain is marked as fitted exactly for the meshes that resolve it. -/
theorem C82_flag {n : ℤ} (hn : n ∈ nxs) :
    (Script.fitted3 n = true ↔ Resolves (omegaGcc3 0.25) (Strips 3 0.25) (boxMesh n.toNat)) ∧
    (Script.fitted3 n = true ↔ Resolves (omegaNoGcc3 0.25) (fun p => 0 ≤ p 0 ∧ p 0 ≤ 0.25) (boxMesh n.toNat)) := by
  have h : n = 2 ∨ ∃ m : ℕ, 0 < m ∧ n.toNat = 4 * m ∧ Script.fitted3 n = true := by
    simp only [nxs, List.mem_cons, List.not_mem_nil, or_false] at hn
    rcases hn with rfl | rfl | rfl | rfl | rfl | rfl
    · exact .inl rfl
    all_goals right
    exacts [⟨1, by decide, rfl, by decide⟩, ⟨2, by decide, rfl, by decide⟩, ⟨4, by decide, rfl, by decide⟩,
      ⟨8, by decide, rfl, by decide⟩, ⟨16, by decide, rfl, by decide⟩]
  rcases h with rfl | ⟨m, hm, e, h⟩
  · exact ⟨iff_of_false (by decide) (C82_box_two _).1, iff_of_false (by decide) (C82_box_two _).2⟩
  · rw [e]
    exact ⟨iff_of_true h (C82_box hm).1, iff_of_true h (C82_box hm).2⟩

theorem allAroundSurfaces_eq : allAroundSurfaces =
    [rectangle 0 0 1 1 \ rectangle 0.2 0.2 0.6 0.6, rectangle 0.2 0.2 0.6 0.6] :=
  fragment_two disjoint_sdiff_left (diff_pos (by norm_num) (by norm_num) (by norm_num) (by norm_num) (by norm_num))
    (rectangle_pos (by norm_num) (by norm_num))

/-- An open part of a rectangle does not meet its sides. -/
theorem open_subset_rectangle {u : Region} (ho : IsOpen u) {x y dx dy : ℝ} (h : u ⊆ rectangle x y dx dy) {z : ℝ × ℝ}
    (hz : z ∈ u) : x < z.1 ∧ z.1 < x + dx ∧ y < z.2 ∧ z.2 < y + dy := by
  have h1 : z ∈ interior (rectangle x y dx dy) := interior_maximal h ho hz
  rw [rectangle, interior_prod_eq, interior_Icc, interior_Icc] at h1
  exact ⟨h1.1.1, h1.1.2, h1.2.1, h1.2.2⟩

/-- C82 in two dimensions: every mesh of the hierarchy of `get_mesh_data_all_around`, data domain of solve_2d.py. -/
theorem C82_all_around {meshes : List (List Cell)} {m₀ : List Cell} (h₀ : MeshOf allAroundSurfaces m₀)
    (hr : List.IsChain RefinesTo (m₀ :: meshes)) {m : List Cell} (hm : m ∈ m₀ :: meshes) :
    Resolves omegaConvex2 (Strips 2 0.2) m := by
  have key : ∀ m ∈ m₀ :: meshes, ∀ c ∈ m, c.mid ∈ c.inner ∧ ∃ c' ∈ m₀, c.inner ⊆ c'.inner := by
    intro m hm
    have base : ∀ c ∈ m₀, c.mid ∈ c.inner ∧ ∃ c' ∈ m₀, c.inner ⊆ c'.inner := fun c hc => by
      obtain ⟨-, -, -, -, -, -, h⟩ := h₀ c hc
      exact ⟨h, c, hc, Subset.rfl⟩
    clear h₀
    suffices ∀ (l : List (List Cell)) (m₁ : List Cell), (∀ c ∈ m₁, c.mid ∈ c.inner ∧ ∃ c' ∈ m₀, c.inner ⊆ c'.inner) →
        List.IsChain RefinesTo (m₁ :: l) → ∀ m ∈ m₁ :: l, ∀ c ∈ m, c.mid ∈ c.inner ∧ ∃ c' ∈ m₀, c.inner ⊆ c'.inner from
      this meshes m₀ base hr m hm
    intro l
    induction l with
    | nil => intro m₁ h1 _ m hm; rw [List.mem_singleton] at hm; subst hm; exact h1
    | cons m₂ l ih =>
      intro m₁ h1 h2 m hm
      rw [List.isChain_cons_cons] at h2
      rcases List.mem_cons.1 hm with rfl | hm
      · exact h1
      · refine ih m₂ (fun c hc => ?_) h2.2 m hm
        obtain ⟨h3, c', hc', h4⟩ := h2.1 c hc
        obtain ⟨-, c'', hc'', h5⟩ := h1 c' hc'
        exact ⟨h3, c'', hc'', h4.trans h5⟩
  refine resolves_of C53_convex2 fun c hc p hp => ?_
  obtain ⟨h1, c', hc', h2⟩ := key m hm c hc
  obtain ⟨s, hs, u, ho, hu, e, -⟩ := h₀ c' hc'
  rw [allAroundSurfaces_eq] at hs
  have region : (∀ p ∈ c'.inner, Strips 2 0.2 p) ∨ ∀ p ∈ c'.inner, ¬ Strips 2 0.2 p := by
    rw [e]
    simp only [List.mem_cons, List.not_mem_nil, or_false] at hs
    rcases hs with rfl | rfl
    · left
      rintro - ⟨z, hz, rfl⟩
      obtain ⟨h1, h2⟩ := hu hz
      rw [mem_rectangle] at h2
      by_contra hc
      refine h2 ?_
      simp only [Strips, not_exists, not_and, not_or, not_le] at hc
      have a := hc 0 (by norm_num)
      have b := hc 1 (by norm_num)
      norm_num [planePoint] at a b ⊢
      exact ⟨a.1.le, a.2.le, b.1.le, b.2.le⟩
    · right
      rintro - ⟨z, hz, rfl⟩ ⟨d, hd, h3⟩
      have := open_subset_rectangle ho hu hz
      norm_num at this
      interval_cases d <;> norm_num [planePoint] at h3 <;> rcases h3 with h3 | h3 <;> linarith
  rcases region with h | h
  · exact iff_of_true (h _ (h2 hp)) (h _ (h2 h1))
  · exact iff_of_false (h _ (h2 hp)) (h _ (h2 h1))

/-! Non-vacuity -/

/-- A mesh of the frame geometry: one cell in the frame, one inside, and a refinement of them. -/
noncomputable def twoCells (r : ℝ) : List Cell :=
  [⟨planePoint '' (Ioo 0 r ×ˢ Ioo 0 r), planePoint (r / 2, r / 2)⟩,
   ⟨planePoint '' (Ioo 0.5 (0.5 + r) ×ˢ Ioo 0.5 (0.5 + r)), planePoint (0.5 + r / 2, 0.5 + r / 2)⟩]

theorem twoCells_mid {r : ℝ} (hr : 0 < r) : ∀ c ∈ twoCells r, c.mid ∈ c.inner := by
  intro c hc
  simp only [twoCells, List.mem_cons, List.not_mem_nil, or_false] at hc
  rcases hc with rfl | rfl
  · exact ⟨_, ⟨⟨by simp; linarith, by simp; linarith⟩, by simp; linarith, by simp; linarith⟩, rfl⟩
  · exact ⟨_, ⟨⟨by simp; linarith, by simp; linarith⟩, by simp; linarith, by simp; linarith⟩, rfl⟩

theorem twoCells_mesh : MeshOf allAroundSurfaces (twoCells 0.1) := by
  intro c hc
  have hmid := twoCells_mid (r := 0.1) (by norm_num) c hc
  rw [allAroundSurfaces_eq]
  simp only [twoCells, List.mem_cons, List.not_mem_nil, or_false] at hc
  rcases hc with rfl | rfl
  · refine ⟨_, List.mem_cons_self, _, isOpen_Ioo.prod isOpen_Ioo, ?_, rfl, hmid⟩
    rintro z ⟨⟨h1, h2⟩, h3, h4⟩
    refine ⟨mem_rectangle.2 ⟨by linarith, by linarith, by linarith, by linarith⟩, fun h => ?_⟩
    rw [mem_rectangle] at h
    linarith [h.1]
  · refine ⟨_, List.mem_cons_of_mem _ List.mem_cons_self, _, isOpen_Ioo.prod isOpen_Ioo, ?_, rfl, hmid⟩
    rintro z ⟨⟨h1, h2⟩, h3, h4⟩
    exact mem_rectangle.2 ⟨by linarith, by linarith, by linarith, by linarith⟩

theorem twoCells_refine : RefinesTo (twoCells 0.1) (twoCells 0.05) := by
  intro c hc
  refine ⟨twoCells_mid (by norm_num) c hc, ?_⟩
  simp only [twoCells, List.mem_cons, List.not_mem_nil, or_false] at hc
  rcases hc with rfl | rfl
  · exact ⟨_, List.mem_cons_self, image_mono (prod_mono (Ioo_subset_Ioo_right (by norm_num)) (Ioo_subset_Ioo_right (by norm_num)))⟩
  · exact ⟨_, List.mem_cons_of_mem _ List.mem_cons_self,
      image_mono (prod_mono (Ioo_subset_Ioo_right (by norm_num)) (Ioo_subset_Ioo_right (by norm_num)))⟩

example : Resolves omegaConvex2 (Strips 2 0.2) (twoCells 0.05) :=
  C82_all_around (meshes := [twoCells 0.05]) twoCells_mesh (by simp [twoCells_refine]) (by simp)
example : Resolves omegaNoGcc1 (fun p => p 0 ≤ 0.2) (intervalMesh 160) := (C82_interval (N := 32) (by norm_num)).1
example : Resolves (omegaNoGcc3 0.25) (fun p => 0 ≤ p 0 ∧ p 0 ≤ 0.25) (boxMesh 16) := (C82_box (m := 4) (by norm_num)).2
example : (16 : ℤ) ∈ nxs := by decide

end Dxss
