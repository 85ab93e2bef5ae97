import Verif.Lemmas.TriMesh

/-! # Refined triangulations cover the same domain, and their finite element spaces contain the coarse ones -/

namespace Dxss
open Finset MeasureTheory
namespace Tri

/-! ### Four parts of a triangle -/

/-- The parts in the coordinates of the triangle. -/
def reg : Bool → Fin 4 → Set (Fin 2 → ℝ)
  | _, 0 => {p | 0 ≤ p 0 ∧ 0 ≤ p 1 ∧ 2 * (p 0 + p 1) ≤ 1}
  | _, 1 => {p | 1 ≤ 2 * p 0 ∧ 0 ≤ p 1 ∧ p 0 + p 1 ≤ 1}
  | false, 2 => {p | 0 ≤ p 0 ∧ 1 ≤ 2 * p 1 ∧ p 0 + p 1 ≤ 1}
  | false, 3 => {p | 2 * p 0 ≤ 1 ∧ 2 * p 1 ≤ 1 ∧ 1 ≤ 2 * (p 0 + p 1)}
  | true, 2 => {p | 0 ≤ p 0 ∧ 1 ≤ 2 * (p 0 + p 1) ∧ 2 * p 0 + p 1 ≤ 1}
  | true, 3 => {p | 2 * p 0 ≤ 1 ∧ p 0 + p 1 ≤ 1 ∧ 1 ≤ 2 * p 0 + p 1}

theorem hull_reg (A B C : Fin 2 → ℝ) {P Q S : Fin 2 → ℝ} {R : Set (Fin 2 → ℝ)} (f g : (Fin 2 → ℝ) → Fin 2 → ℝ)
    (hf : ∀ p ∈ refTri, f p ∈ R) (hg : ∀ p ∈ R, g p ∈ refTri)
    (ef : ∀ p, refPt P Q S (p 0) (p 1) = refPt A B C (f p 0) (f p 1)) (eg : ∀ p, refPt P Q S (g p 0) (g p 1) = refPt A B C (p 0) (p 1)) :
    hull P Q S = (fun p : Fin 2 → ℝ => refPt A B C (p 0) (p 1)) '' R := by
  rw [hull_eq]
  ext x
  constructor
  · rintro ⟨p, hp, rfl⟩; exact ⟨f p, hf p hp, (ef p).symm⟩
  · rintro ⟨p, hp, rfl⟩; exact ⟨g p, hg p hp, eg p⟩

theorem part_hull (A B C : Fin 2 → ℝ) (fl : Bool) (c : Fin 4) :
    hull (part A B C fl c 0) (part A B C fl c 1) (part A B C fl c 2) = (fun p : Fin 2 → ℝ => refPt A B C (p 0) (p 1)) '' reg fl c := by
  have h0 : ∀ fl, hull (part A B C fl 0 0) (part A B C fl 0 1) (part A B C fl 0 2) = (fun p : Fin 2 → ℝ => refPt A B C (p 0) (p 1)) '' reg fl 0 := by
    intro fl
    have : hull A (mid A B) (mid C A) = (fun p : Fin 2 → ℝ => refPt A B C (p 0) (p 1)) '' reg fl 0 := by
      refine hull_reg A B C (fun p => ![p 0 / 2, p 1 / 2]) (fun p => ![2 * p 0, 2 * p 1]) ?_ ?_ ?_ ?_
      · rintro p ⟨a, b, c⟩
        refine ⟨?_, ?_, ?_⟩ <;> simp <;> linarith
      · cases fl <;> rintro p ⟨a, b, c⟩ <;> refine ⟨?_, ?_, ?_⟩ <;> simp <;> linarith
      · intro p; funext c; simp [refPt, mid]; ring
      · intro p; funext c; simp [refPt, mid]; ring
    cases fl <;> exact this
  have h1 : ∀ fl, hull (part A B C fl 1 0) (part A B C fl 1 1) (part A B C fl 1 2) = (fun p : Fin 2 → ℝ => refPt A B C (p 0) (p 1)) '' reg fl 1 := by
    intro fl
    have : hull (mid A B) B (mid B C) = (fun p : Fin 2 → ℝ => refPt A B C (p 0) (p 1)) '' reg fl 1 := by
      refine hull_reg A B C (fun p => ![1 / 2 + p 0 / 2, p 1 / 2]) (fun p => ![2 * p 0 - 1, 2 * p 1]) ?_ ?_ ?_ ?_
      · rintro p ⟨a, b, c⟩
        refine ⟨?_, ?_, ?_⟩ <;> simp <;> linarith
      · cases fl <;> rintro p ⟨a, b, c⟩ <;> refine ⟨?_, ?_, ?_⟩ <;> simp <;> linarith
      · intro p; funext c; simp [refPt, mid]; ring
      · intro p; funext c; simp [refPt, mid]; ring
    cases fl <;> exact this
  fin_cases c
  · exact h0 fl
  · exact h1 fl
  · cases fl
    · change hull (mid C A) (mid B C) C = _
      refine hull_reg A B C (fun p => ![p 0 / 2, 1 / 2 + p 1 / 2]) (fun p => ![2 * p 0, 2 * p 1 - 1]) ?_ ?_ ?_ ?_
      · rintro p ⟨a, b, c⟩
        refine ⟨?_, ?_, ?_⟩ <;> simp <;> linarith
      · rintro p ⟨a, b, c⟩; refine ⟨?_, ?_, ?_⟩ <;> simp <;> linarith
      · intro p; funext c; simp [refPt, mid]; ring
      · intro p; funext c; simp [refPt, mid]; ring
    · change hull (mid C A) (mid A B) C = _
      refine hull_reg A B C (fun p => ![p 0 / 2, 1 / 2 - p 0 / 2 + p 1 / 2]) (fun p => ![2 * p 0, 2 * (p 0 + p 1) - 1]) ?_ ?_ ?_ ?_
      · rintro p ⟨a, b, c⟩
        refine ⟨?_, ?_, ?_⟩ <;> simp <;> linarith
      · rintro p ⟨a, b, c⟩; refine ⟨?_, ?_, ?_⟩ <;> simp <;> linarith
      · intro p; funext c; simp [refPt, mid]; ring
      · intro p; funext c; simp [refPt, mid]; ring
  · cases fl
    · change hull (mid B C) (mid C A) (mid A B) = _
      refine hull_reg A B C (fun p => ![1 / 2 - p 0 / 2, 1 / 2 - p 1 / 2]) (fun p => ![1 - 2 * p 0, 1 - 2 * p 1]) ?_ ?_ ?_ ?_
      · rintro p ⟨a, b, c⟩
        refine ⟨?_, ?_, ?_⟩ <;> simp <;> linarith
      · rintro p ⟨a, b, c⟩; refine ⟨?_, ?_, ?_⟩ <;> simp <;> linarith
      · intro p; funext c; simp [refPt, mid]; ring
      · intro p; funext c; simp [refPt, mid]; ring
    · change hull C (mid A B) (mid B C) = _
      refine hull_reg A B C (fun p => ![(p 0 + p 1) / 2, 1 - p 0 - p 1 / 2]) (fun p => ![2 * (1 - p 0 - p 1), 4 * p 0 + 2 * p 1 - 2]) ?_ ?_ ?_ ?_
      · rintro p ⟨a, b, c⟩
        refine ⟨?_, ?_, ?_⟩ <;> simp <;> linarith
      · rintro p ⟨a, b, c⟩; refine ⟨?_, ?_, ?_⟩ <;> simp <;> linarith
      · intro p; funext c; simp [refPt, mid]; ring
      · intro p; funext c; simp [refPt, mid]; ring

theorem reg_cover (fl : Bool) : ⋃ c, reg fl c = refTri := by
  ext p
  simp only [Set.mem_iUnion]
  constructor
  · rintro ⟨c, hc⟩
    cases fl <;> fin_cases c <;> obtain ⟨a, b, c⟩ := hc <;> refine ⟨?_, ?_, ?_⟩ <;> linarith
  · rintro ⟨a, b, c⟩
    by_cases h0 : 2 * (p 0 + p 1) ≤ 1
    · exact ⟨0, by cases fl <;> exact ⟨a, b, h0⟩⟩
    by_cases h1 : 1 ≤ 2 * p 0
    · exact ⟨1, by cases fl <;> exact ⟨h1, b, c⟩⟩
    cases fl
    · by_cases h2 : 1 ≤ 2 * p 1
      · exact ⟨2, a, h2, c⟩
      · exact ⟨3, by linarith, by linarith, by linarith⟩
    · by_cases h2 : 2 * p 0 + p 1 ≤ 1
      · exact ⟨2, a, by linarith, h2⟩
      · exact ⟨3, by linarith, c, by linarith⟩

theorem reg_disj (fl : Bool) {c d : Fin 4} (h : c ≠ d) : volume (reg fl c ∩ reg fl d) = 0 := by
  have key : ∃ α β γ : ℝ, (α ≠ 0 ∨ β ≠ 0) ∧ reg fl c ∩ reg fl d ⊆ {x | α * x 0 + β * x 1 = γ} := by
    have hs : volume (∅ : Set (Fin 2 → ℝ)) = 0 := measure_empty
    have aux : ∀ c d : Fin 4, c < d → ∃ α β γ : ℝ, (α ≠ 0 ∨ β ≠ 0) ∧ reg fl c ∩ reg fl d ⊆ {x | α * x 0 + β * x 1 = γ} := by
      intro c d h
      cases fl <;> fin_cases c <;> fin_cases d <;> simp at h
      · refine ⟨0, 1, 0, by norm_num, ?_⟩; rintro x ⟨⟨a, b, c⟩, a', b', c'⟩; change 0 * x 0 + 1 * x 1 = 0; linarith
      · refine ⟨1, 0, 0, by norm_num, ?_⟩; rintro x ⟨⟨a, b, c⟩, a', b', c'⟩; change 1 * x 0 + 0 * x 1 = 0; linarith
      · refine ⟨1, 1, 1 / 2, by norm_num, ?_⟩; rintro x ⟨⟨a, b, c⟩, a', b', c'⟩; change 1 * x 0 + 1 * x 1 = 1 / 2; linarith
      · refine ⟨1, 0, 1 / 2, by norm_num, ?_⟩; rintro x ⟨⟨a, b, c⟩, a', b', c'⟩; change 1 * x 0 + 0 * x 1 = 1 / 2; linarith
      · refine ⟨1, 0, 1 / 2, by norm_num, ?_⟩; rintro x ⟨⟨a, b, c⟩, a', b', c'⟩; change 1 * x 0 + 0 * x 1 = 1 / 2; linarith
      · refine ⟨0, 1, 1 / 2, by norm_num, ?_⟩; rintro x ⟨⟨a, b, c⟩, a', b', c'⟩; change 0 * x 0 + 1 * x 1 = 1 / 2; linarith
      · refine ⟨0, 1, 0, by norm_num, ?_⟩; rintro x ⟨⟨a, b, c⟩, a', b', c'⟩; change 0 * x 0 + 1 * x 1 = 0; linarith
      · refine ⟨1, 1, 1 / 2, by norm_num, ?_⟩; rintro x ⟨⟨a, b, c⟩, a', b', c'⟩; change 1 * x 0 + 1 * x 1 = 1 / 2; linarith
      · refine ⟨1, 1, 1 / 2, by norm_num, ?_⟩; rintro x ⟨⟨a, b, c⟩, a', b', c'⟩; change 1 * x 0 + 1 * x 1 = 1 / 2; linarith
      · refine ⟨1, 0, 1 / 2, by norm_num, ?_⟩; rintro x ⟨⟨a, b, c⟩, a', b', c'⟩; change 1 * x 0 + 0 * x 1 = 1 / 2; linarith
      · refine ⟨1, 0, 1 / 2, by norm_num, ?_⟩; rintro x ⟨⟨a, b, c⟩, a', b', c'⟩; change 1 * x 0 + 0 * x 1 = 1 / 2; linarith
      · refine ⟨2, 1, 1, by norm_num, ?_⟩; rintro x ⟨⟨a, b, c⟩, a', b', c'⟩; change 2 * x 0 + 1 * x 1 = 1; linarith
    rcases lt_or_gt_of_ne h with h | h
    · exact aux c d h
    · rw [Set.inter_comm]; exact aux d c h
  obtain ⟨α, β, γ, h1, h2⟩ := key
  exact measure_mono_null h2 (line_null α β γ h1)

theorem part_cover (A B C : Fin 2 → ℝ) (fl : Bool) :
    ⋃ c, hull (part A B C fl c 0) (part A B C fl c 1) (part A B C fl c 2) = hull A B C := by
  simp only [part_hull]
  rw [← Set.image_iUnion, reg_cover, hull_eq]

theorem part_disj {A B C : Fin 2 → ℝ} (h : 0 < det2 A B C) (fl : Bool) {c d : Fin 4} (hcd : c ≠ d) :
    volume (hull (part A B C fl c 0) (part A B C fl c 1) (part A B C fl c 2) ∩
      hull (part A B C fl d 0) (part A B C fl d 1) (part A B C fl d 2)) = 0 := by
  rw [part_hull, part_hull, ← Set.image_inter fun p q e => refPt_inj h e]
  have : (fun p : Fin 2 → ℝ => refPt A B C (p 0) (p 1)) = fun p => refLin A B C p + A := funext fun p => refPt_eq A B C p
  refine addHaar_image_eq_zero_of_differentiableOn_of_addHaar_eq_zero volume ?_ (reg_disj fl hcd)
  rw [this]
  exact ((refLin A B C).differentiable.add_const A).differentiableOn

/-! ### Turned and divided triangulations -/

variable {m : Tri} {r : Fin m.n → Fin 3} {fl : Fin m.n → Bool}

theorem turn_tri (K : Fin m.n) : (m.turn r).tri K = m.tri K := by
  have : ∀ j : Fin 3, hull (m.v K (0 + j)) (m.v K (1 + j)) (m.v K (2 + j)) = hull (m.v K 0) (m.v K 1) (m.v K 2) := by
    intro j
    unfold hull
    congr 1
    fin_cases j
    · rfl
    · change ({m.v K 1, m.v K 2, m.v K 0} : Set _) = _
      ext x; simp only [Set.mem_insert_iff, Set.mem_singleton_iff]; tauto
    · change ({m.v K 2, m.v K 0, m.v K 1} : Set _) = _
      ext x; simp only [Set.mem_insert_iff, Set.mem_singleton_iff]; tauto
  exact this (r K)

theorem turn_det (K : Fin m.n) : (m.turn r).det K = m.det K := by
  have : ∀ j : Fin 3, det2 (m.v K (0 + j)) (m.v K (1 + j)) (m.v K (2 + j)) = det2 (m.v K 0) (m.v K 1) (m.v K 2) := by
    intro j
    fin_cases j
    · rfl
    · change det2 (m.v K 1) (m.v K 2) (m.v K 0) = _; unfold det2; ring
    · change det2 (m.v K 2) (m.v K 0) (m.v K 1) = _; unfold det2; ring
  exact this (r K)

theorem turn_len (K : Fin m.n) (i : Fin 3) : len (m := m.turn r) (K, i) = len (m := m) (K, i + r K) := by
  have c : ∀ x y : Fin 3, x + 1 + y = x + y + 1 := by decide
  change segLen (m.v K (i + r K)) (m.v K (i + 1 + r K)) = segLen (m.v K (i + r K)) (m.v K (i + r K + 1))
  rw [c]

theorem turn_bd (x : Fin 2 → ℝ) : (m.turn r).OnBoundary x ↔ m.OnBoundary x := by
  have c : ∀ x y : Fin 3, x + 1 + y = x + y + 1 := by decide
  have a : ∀ x y : Fin 3, x - y + y = x := by decide
  constructor
  · rintro ⟨⟨K, i⟩, he, s, hs, rfl⟩
    refine ⟨(K, i + r K), Option.map_eq_none_iff.1 he, s, hs, ?_⟩
    change segPt (m.v K (i + r K)) (m.v K (i + 1 + r K)) s = segPt (m.v K (i + r K)) (m.v K (i + r K + 1)) s
    rw [c]
  · rintro ⟨⟨K, i⟩, he, s, hs, rfl⟩
    refine ⟨(K, i - r K), ?_, s, hs, ?_⟩
    · refine Option.map_eq_none_iff.2 ?_
      simp only [a]; exact he
    · change _ = segPt (m.v K (i - r K + r K)) (m.v K (i - r K + 1 + r K)) s
      rw [c, a]; rfl

theorem turn_lagrange (k : ℕ) : (m.turn r).lagrange k = m.lagrange k := by
  have c : ∀ x y : Fin 3, x + 1 + y = x + y + 1 := by decide
  have a : ∀ x y : Fin 3, x - y + y = x := by decide
  ext u
  constructor
  · rintro ⟨h1, h2⟩
    refine ⟨h1, fun e e' h s hs => ?_⟩
    have := h2 (e.1, e.2 - r e.1) (e'.1, e'.2 - r e'.1) (by
      refine Option.map_eq_some_iff.2 ⟨e', ?_, rfl⟩
      simp only [a]; exact h) s hs
    change (u e.1).1 (segPt (m.v e.1 (e.2 - r e.1 + r e.1)) (m.v e.1 (e.2 - r e.1 + 1 + r e.1)) s)
      = (u e'.1).1 (segPt (m.v e.1 (e.2 - r e.1 + r e.1)) (m.v e.1 (e.2 - r e.1 + 1 + r e.1)) s) at this
    rw [c, a] at this
    exact this
  · rintro ⟨h1, h2⟩
    refine ⟨h1, fun e e' h s hs => ?_⟩
    obtain ⟨p, hp, rfl⟩ := Option.map_eq_some_iff.1 h
    have := h2 _ _ hp s hs
    change (u e.1).1 (segPt (m.v e.1 (e.2 + r e.1)) (m.v e.1 (e.2 + 1 + r e.1)) s)
      = (u p.1).1 (segPt (m.v e.1 (e.2 + r e.1)) (m.v e.1 (e.2 + 1 + r e.1)) s)
    rw [c]
    exact this

variable (m fl) in
/-- The number of part `c` of triangle `K`. -/
noncomputable def child (K : Fin m.n) (c : Fin 4) : Fin (m.split fl).n := Fintype.equivFin (Fin m.n × Fin 4) (K, c)

variable (m fl) in
/-- The triangle a triangle of the divided mesh is part of. -/
noncomputable def parent (J : Fin (m.split fl).n) : Fin m.n := ((Fintype.equivFin (Fin m.n × Fin 4)).symm J).1

theorem parent_child (K : Fin m.n) (c : Fin 4) : parent m fl (child m fl K c) = K := by
  unfold parent child; rw [Equiv.symm_apply_apply]

theorem exists_child (J : Fin (m.split fl).n) : ∃ K c, J = child m fl K c := by
  obtain ⟨⟨K, c⟩, rfl⟩ := (Fintype.equivFin (Fin m.n × Fin 4)).surjective J
  exact ⟨K, c, rfl⟩

theorem child_inj {K L : Fin m.n} {c d : Fin 4} (h : child m fl K c = child m fl L d) : K = L ∧ c = d :=
  Prod.mk.inj ((Fintype.equivFin (Fin m.n × Fin 4)).injective h)

theorem split_v (K : Fin m.n) (c : Fin 4) : (m.split fl).v (child m fl K c) = part (m.v K 0) (m.v K 1) (m.v K 2) (fl K) c :=
  congrArg (fun J : Fin m.n × Fin 4 => part (m.v J.1 0) (m.v J.1 1) (m.v J.1 2) (fl J.1) J.2) (Equiv.symm_apply_apply _ (K, c))

theorem split_nb (K : Fin m.n) (c : Fin 4) (i : Fin 3) :
    (m.split fl).nb (child m fl K c, i) = (m.splitNb fl ((K, c), i)).map fun p => (child m fl p.1.1 p.1.2, p.2) := by
  change (m.splitNb fl ((Fintype.equivFin (Fin m.n × Fin 4)).symm (Fintype.equivFin (Fin m.n × Fin 4) (K, c)), i)).map _ = _
  rw [Equiv.symm_apply_apply]
  rfl

theorem split_sum {M : Type} [AddCommMonoid M] (f : Fin (m.split fl).n → M) : ∑ J, f J = ∑ K, ∑ c, f (child m fl K c) := by
  rw [← Fintype.sum_prod_type']
  exact ((Fintype.equivFin (Fin m.n × Fin 4)).sum_comp f).symm

theorem split_tri (K : Fin m.n) (c : Fin 4) : (m.split fl).tri (child m fl K c)
    = hull (part (m.v K 0) (m.v K 1) (m.v K 2) (fl K) c 0) (part (m.v K 0) (m.v K 1) (m.v K 2) (fl K) c 1)
        (part (m.v K 0) (m.v K 1) (m.v K 2) (fl K) c 2) := by
  unfold tri; rw [split_v]

theorem split_det (K : Fin m.n) (c : Fin 4) : (m.split fl).det (child m fl K c) = m.det K / 4 := by
  unfold det; rw [split_v, part_det]

theorem split_cover (K : Fin m.n) : ⋃ c, (m.split fl).tri (child m fl K c) = m.tri K := by
  simp only [split_tri]; exact part_cover _ _ _ _

theorem split_sub (K : Fin m.n) (c : Fin 4) : (m.split fl).tri (child m fl K c) ⊆ m.tri K := by
  rw [← split_cover (fl := fl) K]; exact Set.subset_iUnion (fun c => (m.split fl).tri (child m fl K c)) c

theorem split_part (K : Fin m.n) {c d : Fin 4} (h : c ≠ d) :
    volume ((m.split fl).tri (child m fl K c) ∩ (m.split fl).tri (child m fl K d)) = 0 := by
  rw [split_tri, split_tri]; exact part_disj (m.pos K) (fl K) h

theorem split_disj (h : Pairwise fun K L => volume (m.tri K ∩ m.tri L) = 0) :
    Pairwise fun J J' => volume ((m.split fl).tri J ∩ (m.split fl).tri J') = 0 := by
  intro J J' hJ
  obtain ⟨K, c, rfl⟩ := exists_child J
  obtain ⟨L, d, rfl⟩ := exists_child J'
  by_cases hKL : K = L
  · subst hKL
    exact split_part K fun e => hJ (by rw [e])
  · exact measure_mono_null (Set.inter_subset_inter (split_sub K c) (split_sub L d)) (h hKL)

theorem split_union : ⋃ J, (m.split fl).tri J = ⋃ K, m.tri K := by
  ext x
  simp only [Set.mem_iUnion]
  constructor
  · rintro ⟨J, hJ⟩
    obtain ⟨K, c, rfl⟩ := exists_child J
    exact ⟨K, split_sub K c hJ⟩
  · rintro ⟨K, hK⟩
    rw [← split_cover (fl := fl) K] at hK
    obtain ⟨c, hc⟩ := Set.mem_iUnion.1 hK
    exact ⟨_, hc⟩

/-- The points of the first and of the second half of an edge. -/
theorem segPt_half (A B : Fin 2 → ℝ) (second : Bool) (s : ℝ) :
    segPt (if second then mid A B else A) (if second then B else mid A B) s = segPt A B (if second then (1 + s) / 2 else s / 2) := by
  funext c
  cases second <;> simp [segPt, mid] <;> ring

theorem split_half (K : Fin m.n) (s : Bool) (j : Fin 3) (t : ℝ) :
    segPt (src (m := m.split fl) (child m fl K (half (fl K) s j).1, (half (fl K) s j).2))
      (tgt (m := m.split fl) (child m fl K (half (fl K) s j).1, (half (fl K) s j).2)) t
      = segPt (src (m := m) (K, j)) (tgt (m := m) (K, j)) (if s then (1 + t) / 2 else t / 2) := by
  unfold src tgt
  simp only [split_v]
  obtain ⟨h1, h2⟩ := part_half (m.v K) (fl K) s j
  rw [h1, h2, segPt_half]

theorem split_bd (x : Fin 2 → ℝ) : (m.split fl).OnBoundary x ↔ m.OnBoundary x := by
  constructor
  · rintro ⟨⟨J, i⟩, he, t, ht, rfl⟩
    obtain ⟨K, c, rfl⟩ := exists_child J
    rw [split_nb, Option.map_eq_none_iff] at he
    unfold splitNb at he
    simp only at he
    cases hk : kind (fl K) c i with
    | inl d => rw [hk] at he; simp at he
    | inr d =>
      obtain ⟨s, j⟩ := d
      rw [hk] at he
      have hh := half_kind _ _ _ _ _ hk
      refine ⟨(K, j), Option.map_eq_none_iff.1 he, if s then (1 + t) / 2 else t / 2, ?_, ?_⟩
      · cases s <;> constructor <;> simp <;> linarith [ht.1, ht.2]
      · rw [← split_half, hh]
  · rintro ⟨⟨K, j⟩, he, t, ht, rfl⟩
    have key : ∀ (s : Bool) (u : ℝ), u ∈ Set.Icc (0:ℝ) 1 → (if s then (1 + u) / 2 else u / 2) = t → (m.split fl).OnBoundary (segPt (src (m := m) (K, j)) (tgt (m := m) (K, j)) t) := by
      rintro s u hu rfl
      refine ⟨(child m fl K (half (fl K) s j).1, (half (fl K) s j).2), ?_, u, hu, ?_⟩
      · rw [split_nb, Option.map_eq_none_iff]
        unfold splitNb
        simp only
        rw [kind_half]
        exact Option.map_eq_none_iff.2 he
      · rw [split_half]
    by_cases h : t ≤ 1 / 2
    · exact key false (2 * t) ⟨by linarith [ht.1], by linarith⟩ (by simp)
    · exact key true (2 * t - 1) ⟨by linarith, by linarith [ht.2]⟩ (by simp)

variable (m fl) in
/-- A function on the triangulation, on the parts of the triangles. -/
noncomputable def fine : m.Broken →ₗ[ℝ] (m.split fl).Broken where
  toFun u J := u (parent m fl J)
  map_add' _ _ := rfl
  map_smul' _ _ := rfl

theorem fine_child (u : m.Broken) (K : Fin m.n) (c : Fin 4) : fine m fl u (child m fl K c) = u K := by
  change u (parent m fl (child m fl K c)) = u K; rw [parent_child]

theorem fine_lagrange {k : ℕ} {u : m.Broken} (hu : u ∈ m.lagrange k) : fine m fl u ∈ (m.split fl).lagrange k := by
  refine ⟨fun J => hu.1 _, fun e e' h t ht => ?_⟩
  obtain ⟨J, i⟩ := e
  obtain ⟨K, c, rfl⟩ := exists_child J
  rw [split_nb] at h
  obtain ⟨p, hp, rfl⟩ := Option.map_eq_some_iff.1 h
  simp only [fine_child]
  unfold splitNb at hp
  simp only at hp
  cases hk : kind (fl K) c i with
  | inl d => rw [hk] at hp; obtain rfl := Option.some.inj hp; rfl
  | inr d =>
    obtain ⟨s, j⟩ := d
    rw [hk] at hp
    obtain ⟨q, hq, rfl⟩ := Option.map_eq_some_iff.1 hp
    have hh := half_kind _ _ _ _ _ hk
    have := split_half (fl := fl) K s j t
    rw [hh] at this
    simp only at this ⊢
    rw [this]
    refine hu.2 _ _ hq _ ?_
    cases s <;> constructor <;> simp <;> linarith [ht.1, ht.2]

/-- Integrals over a triangle are sums of the integrals over its parts. -/
theorem fine_cell (K : Fin m.n) (f g : AnaD 2) : ∑ c, (m.split fl).cellL2 (child m fl K c) f g = m.cellL2 K f g := by
  have e : m.cellL2 K f g = ∫ x in m.tri K, (AnaD.mul f g).1 x := AnaD.triInt_volume (m.pos K) (AnaD.mul f g)
  rw [e, ← split_cover (fl := fl) K,
    integral_iUnion_ae (s := fun c => (m.split fl).tri (child m fl K c)) (fun c => (hull_meas _ _ _).nullMeasurableSet)
      (fun c d h => split_part K h) ?_, tsum_fintype]
  · exact sum_congr rfl fun c _ => AnaD.triInt_volume ((m.split fl).pos _) (AnaD.mul f g)
  · rw [split_cover]
    refine (AnaD.cont _).continuousOn.integrableOn_compact ?_
    unfold tri
    rw [hull_eq]
    exact refTri_compact.image ((refPt_cont _ _ _).comp (by fun_prop : Continuous fun p : Fin 2 → ℝ => (p 0, p 1)))

theorem turn_cell (K : Fin m.n) (f g : AnaD 2) : (m.turn r).cellL2 K f g = m.cellL2 K f g := by
  have e : m.cellL2 K f g = ∫ x in m.tri K, (AnaD.mul f g).1 x := AnaD.triInt_volume (m.pos K) (AnaD.mul f g)
  rw [e, ← turn_tri (r := r) K]
  exact AnaD.triInt_volume ((m.turn r).pos K) (AnaD.mul f g)

theorem turn_mass (u w : m.Broken) : (m.turn r).space.mass u w = m.space.mass u w :=
  (space_mass (m.turn r) u w).trans ((sum_congr rfl fun K _ => turn_cell (r := r) K (u K) (w K)).trans (space_mass m u w).symm)

theorem turn_stiff (u w : m.Broken) : (m.turn r).space.stiff u w = m.space.stiff u w :=
  (space_stiff (m.turn r) u w).trans
    ((sum_congr rfl fun K _ => sum_congr rfl fun b _ => turn_cell (r := r) K (AnaD.pd b (u K)) (AnaD.pd b (w K))).trans (space_stiff m u w).symm)

theorem turn_omega (i u w : m.Broken) : (m.turn r).space.omega i u w = m.space.omega i u w :=
  (space_omega (m.turn r) i u w).trans
    ((sum_congr rfl fun K _ => turn_cell (r := r) K (AnaD.mul (i K) (u K)) (w K)).trans (space_omega m i u w).symm)

theorem fine_mass (u w : m.Broken) : (m.split fl).space.mass (fine m fl u) (fine m fl w) = m.space.mass u w := by
  rw [space_mass, space_mass, split_sum]
  simp only [fine_child, fine_cell]

theorem fine_stiff (u w : m.Broken) : (m.split fl).space.stiff (fine m fl u) (fine m fl w) = m.space.stiff u w := by
  rw [space_stiff, space_stiff, split_sum]
  simp only [fine_child]
  refine sum_congr rfl fun K _ => ?_
  rw [sum_comm]
  simp only [fine_cell]

theorem fine_omega (i u w : m.Broken) : (m.split fl).space.omega (fine m fl i) (fine m fl u) (fine m fl w) = m.space.omega i u w := by
  rw [space_omega, space_omega, split_sum]
  simp only [fine_child, fine_cell]

/-! ### Lengths -/

theorem segLen_of {A B A' B' : Fin 2 → ℝ} (h : ∀ c, B' c - A' c = (B c - A c) / 2 ∨ B' c - A' c = -((B c - A c) / 2)) :
    segLen A' B' = segLen A B / 2 := by
  unfold segLen
  have e : (B' 0 - A' 0) ^ 2 + (B' 1 - A' 1) ^ 2 = ((B 0 - A 0) ^ 2 + (B 1 - A 1) ^ 2) / 2 ^ 2 := by
    rcases h 0 with h0 | h0 <;> rcases h 1 with h1 | h1 <;> rw [h0, h1] <;> ring
  rw [e, Real.sqrt_div' _ (by norm_num), Real.sqrt_sq (by norm_num)]

theorem part_len (A : Fin 3 → Fin 2 → ℝ) (c : Fin 4) (i : Fin 3) :
    segLen (part (A 0) (A 1) (A 2) false c i) (part (A 0) (A 1) (A 2) false c (i + 1)) = segLen (A i) (A (i + 1)) / 2 := by
  fin_cases c <;> fin_cases i <;> refine segLen_of fun b => ?_ <;> simp [part, mid] <;>
    first | (left; ring1) | (right; ring1)

theorem part_len_flip (A : Fin 3 → Fin 2 → ℝ) (c : Fin 4) (i : Fin 3) :
    (∃ j, segLen (part (A 0) (A 1) (A 2) true c i) (part (A 0) (A 1) (A 2) true c (i + 1)) = segLen (A j) (A (j + 1)) / 2) ∨
    segLen (part (A 0) (A 1) (A 2) true c i) (part (A 0) (A 1) (A 2) true c (i + 1)) ^ 2
      = (2 * segLen (A 1) (A 2) ^ 2 + 2 * segLen (A 2) (A 0) ^ 2 - segLen (A 0) (A 1) ^ 2) / 4 := by
  have med : ∀ P Q, (P = mid (A 0) (A 1) ∧ Q = A 2) ∨ (P = A 2 ∧ Q = mid (A 0) (A 1)) → segLen P Q ^ 2
      = (2 * segLen (A 1) (A 2) ^ 2 + 2 * segLen (A 2) (A 0) ^ 2 - segLen (A 0) (A 1) ^ 2) / 4 := by
    intro P Q h
    unfold segLen
    rw [Real.sq_sqrt (by positivity), Real.sq_sqrt (by positivity), Real.sq_sqrt (by positivity), Real.sq_sqrt (by positivity)]
    rcases h with ⟨rfl, rfl⟩ | ⟨rfl, rfl⟩ <;> unfold mid <;> ring
  have hj : ∀ P Q (j : Fin 3), (∀ c, Q c - P c = (A (j + 1) c - A j c) / 2 ∨ Q c - P c = -((A (j + 1) c - A j c) / 2)) →
      ∃ j, segLen P Q = segLen (A j) (A (j + 1)) / 2 := fun P Q j h => ⟨j, segLen_of h⟩
  fin_cases c <;> fin_cases i
  · left; refine hj _ _ 0 fun b => ?_; simp [part, mid]; left; ring1
  · left; refine hj _ _ 1 fun b => ?_; simp [part, mid]; left; ring1
  · left; refine hj _ _ 2 fun b => ?_; simp [part, mid]; left; ring1
  · left; refine hj _ _ 0 fun b => ?_; simp [part, mid]; left; ring1
  · left; refine hj _ _ 1 fun b => ?_; simp [part, mid]; left; ring1
  · left; refine hj _ _ 2 fun b => ?_; simp [part, mid]; left; ring1
  · left; refine hj _ _ 1 fun b => ?_; simp [part, mid]; right; ring1
  · right; exact med _ _ (.inl ⟨rfl, rfl⟩)
  · left; refine hj _ _ 2 fun b => ?_; simp [part, mid]; left; ring1
  · right; exact med _ _ (.inr ⟨rfl, rfl⟩)
  · left; refine hj _ _ 2 fun b => ?_; simp [part, mid]; right; ring1
  · left; refine hj _ _ 1 fun b => ?_; simp [part, mid]; left; ring1

theorem split_len {K : Fin m.n} (h : fl K = false) (c : Fin 4) (i : Fin 3) :
    len (m := m.split fl) (child m fl K c, i) = len (m := m) (K, i) / 2 := by
  unfold len src tgt
  simp only [split_v, h]
  exact part_len (m.v K) c i

theorem split_len_flip {K : Fin m.n} (h : fl K = true) (c : Fin 4) (i : Fin 3) :
    (∃ j, len (m := m.split fl) (child m fl K c, i) = len (m := m) (K, j) / 2) ∨
    len (m := m.split fl) (child m fl K c, i) ^ 2 = (2 * len (m := m) (K, 1) ^ 2 + 2 * len (m := m) (K, 2) ^ 2 - len (m := m) (K, 0) ^ 2) / 4 := by
  unfold len src tgt
  simp only [split_v, h]
  exact part_len_flip (m.v K) c i

variable (m) in
/-- The number of part `c` of triangle `K` in the refined mesh. -/
noncomputable def kid (K : Fin m.n) (c : Fin 4) : Fin m.refine.n := child (m.turn m.longest) m.slim K c

theorem exists_kid (J : Fin m.refine.n) : ∃ K c, J = m.kid K c := exists_child (m := m.turn m.longest) (fl := m.slim) J

theorem longest_len (K : Fin m.n) (i : Fin 3) : len (m := m) (K, i) ≤ len (m := m) (K, m.longest K) := by
  unfold longest
  split_ifs with h1 h2
  · fin_cases i
    · exact le_rfl
    · exact h1.1
    · exact h1.2
  · fin_cases i
    · change len (m := m) (K, 0) ≤ len (m := m) (K, 1)
      by_contra h3
      exact h1 ⟨(not_le.1 h3).le, h2.trans (not_le.1 h3).le⟩
    · exact le_rfl
    · exact h2
  · have h2' := (not_le.1 h2).le
    fin_cases i
    · change len (m := m) (K, 0) ≤ len (m := m) (K, 2)
      by_contra h3
      exact h1 ⟨h2'.trans (not_le.1 h3).le, (not_le.1 h3).le⟩
    · exact h2'
    · exact le_rfl

theorem diam_longest (K : Fin m.n) : m.diam K = len (m := m) (K, m.longest K) := by
  apply le_antisymm
  · exact max_le (max_le (longest_len K 0) (longest_len K 1)) (longest_len K 2)
  · exact len_le_diam (m := m) (K, m.longest K)

theorem len_nonneg' (e : m.Edge) : 0 ≤ len e := Real.sqrt_nonneg _

/-- Edges of the refined mesh: half as long as an edge of the triangle they come from, or, if that is slim, at most `√2 / 2` times as
long as its longest edge. -/
theorem refine_len_fat {K : Fin m.n} (h : m.slim K = false) (c : Fin 4) (i : Fin 3) :
    len (m := m.refine) (m.kid K c, i) = len (m := m) (K, i + m.longest K) / 2 := by
  have := split_len (m := m.turn m.longest) (fl := m.slim) h c i
  rw [turn_len] at this
  exact this

theorem refine_len (K : Fin m.n) (c : Fin 4) (i : Fin 3) :
    len (m := m.refine) (m.kid K c, i) ≤ √2 / 2 * m.diam K := by
  have s2 : (1:ℝ) ≤ √2 := Real.one_le_sqrt.2 (by norm_num)
  have hd : 0 ≤ m.diam K := (len_nonneg' _).trans (len_le_diam (m := m) (K, 0))
  have hhalf : ∀ x, x ≤ m.diam K → x / 2 ≤ √2 / 2 * m.diam K := fun x hx => by nlinarith
  cases hs : m.slim K
  · rw [refine_len_fat hs]
    exact hhalf _ (len_le_diam (m := m) (K, _))
  · rcases split_len_flip (m := m.turn m.longest) (fl := m.slim) hs c i with ⟨j, hj⟩ | hq
    · rw [turn_len] at hj
      exact hj.trans_le (hhalf _ (len_le_diam (m := m) (K, _)))
    · rw [turn_len, turn_len, turn_len, zero_add, ← diam_longest] at hq
      have hsl : min (min (len (m := m) (K, 0)) (len (m := m) (K, 1))) (len (m := m) (K, 2)) < √2 / 2 * m.diam K := by
        unfold slim at hs; exact of_decide_eq_true hs
      have sq2 : √2 ^ 2 = (2:ℝ) := Real.sq_sqrt (by norm_num)
      set x := len (m := m) (K, 1 + m.longest K)
      set y := len (m := m) (K, 2 + m.longest K)
      have hx : x ≤ m.diam K := len_le_diam (m := m) (K, _)
      have hy : y ≤ m.diam K := len_le_diam (m := m) (K, _)
      have hx0 : 0 ≤ x := len_nonneg' _
      have hy0 : 0 ≤ y := len_nonneg' _
      have s2' : √2 < 2 := by nlinarith
      have hxy : x < √2 / 2 * m.diam K ∨ y < √2 / 2 * m.diam K := by
        by_contra hcon
        rw [not_or, not_lt, not_lt] at hcon
        have : ∀ j : Fin 3, √2 / 2 * m.diam K ≤ len (m := m) (K, j + m.longest K) := by
          intro j
          fin_cases j
          · change √2 / 2 * m.diam K ≤ len (m := m) (K, 0 + m.longest K)
            rw [zero_add, ← diam_longest]; nlinarith
          · exact hcon.1
          · exact hcon.2
        have a : ∀ x y : Fin 3, x - y + y = x := by decide
        have h0 := this (0 - m.longest K); have h1 := this (1 - m.longest K); have h2 := this (2 - m.longest K)
        rw [a] at h0 h1 h2
        exact absurd hsl (not_lt.2 (le_min (le_min h0 h1) h2))
      refine (sq_le_sq₀ (len_nonneg' _) (by positivity)).1 (hq.trans_le ?_)
      rw [mul_pow, div_pow, sq2]
      have qx : x ^ 2 ≤ m.diam K ^ 2 := pow_le_pow_left₀ hx0 hx 2
      have qy : y ^ 2 ≤ m.diam K ^ 2 := pow_le_pow_left₀ hy0 hy 2
      rcases hxy with h | h
      · have := pow_le_pow_left₀ hx0 h.le 2
        rw [mul_pow, div_pow, sq2] at this
        linarith
      · have := pow_le_pow_left₀ hy0 h.le 2
        rw [mul_pow, div_pow, sq2] at this
        linarith

theorem det_le_len (A B C : Fin 2 → ℝ) : det2 A B C ≤ segLen A B * segLen C A := by
  unfold segLen
  rw [← Real.sqrt_mul (by positivity)]
  refine Real.le_sqrt_of_sq_le ?_
  unfold det2
  nlinarith [sq_nonneg ((B 0 - A 0) * (A 0 - C 0) + (B 1 - A 1) * (A 1 - C 1))]

/-- No edge is shorter than the area over the longest edge. -/
theorem len_ge {hM δ : ℝ} (hM0 : 0 < hM) (hi : ∀ e : m.Edge, len e ≤ hM) (area : ∀ K, δ ≤ m.det K) (e : m.Edge) : δ / hM ≤ len e := by
  obtain ⟨K, i⟩ := e
  have hr : m.det K = det2 (m.v K i) (m.v K (i + 1)) (m.v K (i + 2)) := by
    fin_cases i
    · rfl
    · change _ = det2 (m.v K 1) (m.v K 2) (m.v K 0); unfold det det2; ring
    · change _ = det2 (m.v K 2) (m.v K 0) (m.v K 1); unfold det det2; ring
  have h := det_le_len (m.v K i) (m.v K (i + 1)) (m.v K (i + 2))
  rw [← hr] at h
  have h2 : segLen (m.v K (i + 2)) (m.v K i) ≤ hM := by
    have := hi (K, i + 2)
    unfold len src tgt at this
    have e : ∀ x : Fin 3, x + 2 + 1 = x := by decide
    simp only [e] at this
    exact this
  rw [div_le_iff₀ hM0]
  exact (area K).trans (h.trans (mul_le_mul_of_nonneg_left h2 (Real.sqrt_nonneg _)))

variable {hm hM δ R : ℝ}

theorem mid_disc {A B : Fin 2 → ℝ} (hA : A 0 ^ 2 + A 1 ^ 2 ≤ R ^ 2) (hB : B 0 ^ 2 + B 1 ^ 2 ≤ R ^ 2) :
    mid A B 0 ^ 2 + mid A B 1 ^ 2 ≤ R ^ 2 := by
  unfold mid
  nlinarith [sq_nonneg (A 0 - B 0), sq_nonneg (A 1 - B 1)]

theorem part_disc {A B C : Fin 2 → ℝ} (hA : A 0 ^ 2 + A 1 ^ 2 ≤ R ^ 2) (hB : B 0 ^ 2 + B 1 ^ 2 ≤ R ^ 2) (hC : C 0 ^ 2 + C 1 ^ 2 ≤ R ^ 2)
    (f : Bool) (c : Fin 4) (i : Fin 3) : part A B C f c i 0 ^ 2 + part A B C f c i 1 ^ 2 ≤ R ^ 2 := by
  have h1 := mid_disc hA hB; have h2 := mid_disc hB hC; have h3 := mid_disc hC hA
  cases f <;> fin_cases c <;> fin_cases i <;> assumption

theorem refine_det (K : Fin m.n) (c : Fin 4) : m.refine.det (m.kid K c) = m.det K / 4 := by
  have := split_det (m := m.turn m.longest) (fl := m.slim) K c
  rw [turn_det] at this
  exact this

theorem refine_disc (h : m.Bounds hm hM δ R) (J : Fin m.refine.n) (i : Fin 3) : m.refine.v J i 0 ^ 2 + m.refine.v J i 1 ^ 2 ≤ R ^ 2 := by
  obtain ⟨K, c, rfl⟩ := exists_kid J
  have e : m.refine.v (m.kid K c) = _ := split_v (m := m.turn m.longest) (fl := m.slim) K c
  rw [e]
  exact part_disc (h.disc K _) (h.disc K _) (h.disc K _) _ _ _

theorem Bounds.refine (h : m.Bounds hm hM δ R) (hn : 0 < m.n) : m.refine.Bounds (δ / 4 / (√2 / 2 * hM)) (√2 / 2 * hM) (δ / 4) R := by
  have hM0 : 0 < hM := h.hm0.trans_le h.le
  have hδ := h.δ0
  have hi : ∀ e : m.refine.Edge, len e ≤ √2 / 2 * hM := by
    rintro ⟨J, i⟩
    obtain ⟨K, c, rfl⟩ := exists_kid J
    refine (refine_len K c i).trans ?_
    have := (h.diam_le K).2
    gcongr
  have ar : ∀ J, δ / 4 ≤ m.refine.det J := by
    intro J
    obtain ⟨K, c, rfl⟩ := exists_kid J
    rw [refine_det]
    have := h.area K
    gcongr
  have lo := fun e => len_ge (m := m.refine) (by positivity) hi ar e
  exact { hm0 := by positivity, le := (lo (m.kid ⟨0, hn⟩ 0, 0)).trans (hi _), δ0 := by positivity, R0 := h.R0,
          lo := lo, hi := hi, area := ar, disc := refine_disc h }

/-- Without slim triangles all lengths are halved, and there are no slim triangles afterwards. -/
theorem Bounds.refine_fat (h : m.Bounds hm hM δ R) (hs : ∀ K, m.slim K = false) : m.refine.Bounds (hm / 2) (hM / 2) (δ / 4) R := by
  have hM0 : 0 < hM := h.hm0.trans_le h.le
  have hδ := h.δ0; have h0 := h.hm0
  refine { hm0 := by positivity, le := by have := h.le; gcongr, δ0 := by positivity, R0 := h.R0, lo := ?_, hi := ?_, area := ?_, disc := refine_disc h }
  · rintro ⟨J, i⟩
    obtain ⟨K, c, rfl⟩ := exists_kid J
    rw [refine_len_fat (hs K)]
    have := h.lo (K, i + m.longest K)
    gcongr
  · rintro ⟨J, i⟩
    obtain ⟨K, c, rfl⟩ := exists_kid J
    rw [refine_len_fat (hs K)]
    have := h.hi (K, i + m.longest K)
    gcongr
  · intro J
    obtain ⟨K, c, rfl⟩ := exists_kid J
    rw [refine_det]
    have := h.area K
    gcongr

theorem slim_iff (K : Fin m.n) : m.slim K = false ↔ ∀ i j, √2 / 2 * len (m := m) (K, j) ≤ len (m := m) (K, i) := by
  unfold slim
  rw [decide_eq_false_iff_not, not_lt, le_min_iff, le_min_iff]
  constructor
  · rintro ⟨⟨h0, h1⟩, h2⟩ i j
    have hj : √2 / 2 * len (m := m) (K, j) ≤ √2 / 2 * m.diam K := by
      have := len_le_diam (m := m) (K, j)
      gcongr
    refine hj.trans ?_
    fin_cases i <;> assumption
  · intro h
    rw [diam_longest]
    exact ⟨⟨h 0 _, h 1 _⟩, h 2 _⟩

theorem refine_fat (hs : ∀ K, m.slim K = false) (J : Fin m.refine.n) : m.refine.slim J = false := by
  obtain ⟨K, c, rfl⟩ := exists_kid J
  rw [slim_iff]
  intro i j
  rw [refine_len_fat (hs K), refine_len_fat (hs K)]
  have := (slim_iff K).1 (hs K) (i + m.longest K) (j + m.longest K)
  linarith

theorem refine_n : m.refine.n = 4 * m.n := by
  change Fintype.card (Fin m.n × Fin 4) = _
  simp [mul_comm]

theorem refine_tiles (h : m.Tiles) : m.refine.Tiles where
  cover := by
    have := split_union (m := m.turn m.longest) (fl := m.slim)
    simp only [turn_tri] at this
    rw [← h.cover]; exact this
  disj := by
    refine split_disj (m := m.turn m.longest) (fl := m.slim) ?_
    simp only [turn_tri]
    exact h.disj

theorem refine_boundary (x : Fin 2 → ℝ) : m.refine.OnBoundary x ↔ m.OnBoundary x :=
  (split_bd (m := m.turn m.longest) (fl := m.slim) x).trans (turn_bd x)

theorem refine_bd (h : m.BdSquare) : m.refine.BdSquare := fun x hx => h x ((refine_boundary x).1 hx)

theorem Tiles.pos (h : m.Tiles) : 0 < m.n := by
  have : (0 : Fin 2 → ℝ) ∈ ⋃ K, m.tri K := by rw [h.cover]; exact ⟨le_rfl, zero_le_one⟩
  obtain ⟨K, -⟩ := Set.mem_iUnion.1 this
  exact K.pos

theorem Tiles.mem (h : m.Tiles) (K : Fin m.n) (i : Fin 3) : 0 ≤ m.v K i 0 ∧ m.v K i 0 ≤ 1 ∧ 0 ≤ m.v K i 1 ∧ m.v K i 1 ≤ 1 := by
  have hx : m.v K i ∈ m.tri K := subset_convexHull ℝ _ (by fin_cases i <;> simp)
  have : m.v K i ∈ Set.Icc (0 : Fin 2 → ℝ) 1 := by rw [← h.cover]; exact Set.mem_iUnion.2 ⟨K, hx⟩
  exact ⟨this.1 0, this.2 0, this.1 1, this.2 1⟩

/-- Bounds for a triangulation of the unit square. -/
theorem Tiles.bounds (h : m.Tiles) (hδ : 0 < δ) (area : ∀ K, δ ≤ m.det K) : m.Bounds (δ / √2) (√2) δ (√2) := by
  have hi : ∀ e : m.Edge, len e ≤ √2 := by
    rintro ⟨K, i⟩
    obtain ⟨a, b, c, d⟩ := h.mem K i
    obtain ⟨a', b', c', d'⟩ := h.mem K (i + 1)
    refine Real.sqrt_le_sqrt ?_
    change (m.v K (i + 1) 0 - m.v K i 0) ^ 2 + (m.v K (i + 1) 1 - m.v K i 1) ^ 2 ≤ 2
    have h0 : (m.v K (i + 1) 0 - m.v K i 0) ^ 2 ≤ 1 := by rw [sq_le_one_iff_abs_le_one, abs_le]; constructor <;> linarith
    have h1 : (m.v K (i + 1) 1 - m.v K i 1) ^ 2 ≤ 1 := by rw [sq_le_one_iff_abs_le_one, abs_le]; constructor <;> linarith
    linarith
  have s2 : 0 < √(2:ℝ) := by positivity
  have lo := fun e => len_ge (m := m) s2 hi area e
  refine { hm0 := by positivity, le := (lo (⟨0, h.pos⟩, 0)).trans (hi _), δ0 := hδ, R0 := s2, lo := lo, hi := hi, area := area, disc := fun K i => ?_ }
  obtain ⟨a, b, c, d⟩ := h.mem K i
  rw [Real.sq_sqrt (by norm_num)]
  nlinarith

variable (m) in
/-- A function on the triangulation, seen on the refined one. -/
noncomputable def toFine : m.Broken →ₗ[ℝ] m.refine.Broken := fine (m.turn m.longest) m.slim

theorem toFine_kid (u : m.Broken) (K : Fin m.n) (c : Fin 4) : m.toFine u (m.kid K c) = u K :=
  fine_child (m := m.turn m.longest) (fl := m.slim) u K c

end Tri
end Dxss
