import Verif.Model.Tri
import Mathlib.Data.Fintype.EquivFin
import Mathlib.Data.Fintype.Prod
import Mathlib.Data.Fintype.Sum

/-! # Refinement of triangulations

`refine(mesh, edges, redistribute=True)` with all edges marked (meshes.py:220-227, 310-318, 421-429, 850-864; that all edges are
marked is C49).  DOLFINx divides every triangle into four, with the midpoints of the edges as new vertices: it joins the three
midpoints, or, if the shortest edge is shorter than `√2 / 2` times the longest, it joins the midpoint of the longest edge to the opposite
vertex and to the two other midpoints.  Simplification: the numbers of the new triangles are those of the model. -/

namespace Dxss
namespace Tri

/-- A triangulation whose triangles are numbered by the elements of a finite type. -/
noncomputable def of {ι : Type} [Fintype ι] (v : ι → Fin 3 → Fin 2 → ℝ) (pos : ∀ K, 0 < det2 (v K 0) (v K 1) (v K 2))
    (nb : ι × Fin 3 → Option (ι × Fin 3)) (sym : ∀ e e', nb e = some e' → nb e' = some e)
    (glue : ∀ e e', nb e = some e' → v e'.1 e'.2 = v e.1 (e.2 + 1) ∧ v e'.1 (e'.2 + 1) = v e.1 e.2) : Tri where
  n := Fintype.card ι
  v K := v ((Fintype.equivFin ι).symm K)
  pos _ := pos _
  nb e := (nb ((Fintype.equivFin ι).symm e.1, e.2)).map fun p => (Fintype.equivFin ι p.1, p.2)
  sym e e' h := by
    obtain ⟨p, h1, rfl⟩ := Option.map_eq_some_iff.1 h
    have h2 := sym _ _ h1
    simp [h2]
  glue e e' h := by
    obtain ⟨p, h1, rfl⟩ := Option.map_eq_some_iff.1 h
    simpa using glue _ _ h1

/-- The midpoint of a segment. -/
noncomputable def mid (A B : Fin 2 → ℝ) : Fin 2 → ℝ := fun c => (A c + B c) / 2

theorem mid_comm (A B : Fin 2 → ℝ) : mid A B = mid B A := funext fun c => by unfold mid; ring

variable (m : Tri)

/-- The same triangulation with the vertices of triangle `K` listed from number `r K` on. -/
@[reducible] def turn (r : Fin m.n → Fin 3) : Tri where
  n := m.n
  v K i := m.v K (i + r K)
  pos K := by
    have h := m.pos K
    have : ∀ j : Fin 3, det2 (m.v K (0 + j)) (m.v K (1 + j)) (m.v K (2 + j)) = det2 (m.v K 0) (m.v K 1) (m.v K 2) := by
      intro j
      fin_cases j
      · rfl
      · change det2 (m.v K 1) (m.v K 2) (m.v K 0) = _; unfold det2; ring
      · change det2 (m.v K 2) (m.v K 0) (m.v K 1) = _; unfold det2; ring
    rw [this]; exact h
  nb e := (m.nb (e.1, e.2 + r e.1)).map fun e' => (e'.1, e'.2 - r e'.1)
  sym e e' h := by
    obtain ⟨p, h1, rfl⟩ := Option.map_eq_some_iff.1 h
    simp [m.sym _ _ h1]
  glue e e' h := by
    obtain ⟨p, h1, rfl⟩ := Option.map_eq_some_iff.1 h
    have g := m.glue _ _ h1
    have a : ∀ x y : Fin 3, x - y + y = x := by decide
    have b : ∀ x y : Fin 3, x - y + 1 + y = x + 1 := by decide
    have c : ∀ x y : Fin 3, x + 1 + y = x + y + 1 := by decide
    simp only [a, b, c]
    exact g

/-- The four parts of a triangle; `flip`: the midpoint of edge 0 is joined to the opposite vertex. -/
noncomputable def part (A B C : Fin 2 → ℝ) (flip : Bool) : Fin 4 → Fin 3 → Fin 2 → ℝ :=
  match flip with
  | false => ![![A, mid A B, mid C A], ![mid A B, B, mid B C], ![mid C A, mid B C, C], ![mid B C, mid C A, mid A B]]
  | true => ![![A, mid A B, mid C A], ![mid A B, B, mid B C], ![mid C A, mid A B, C], ![C, mid A B, mid B C]]

/-- Where the first (`false`) and the second half of an edge are found in the parts. -/
def half (flip second : Bool) : Fin 3 → Fin 4 × Fin 3 :=
  match second with
  | false => ![(0, 0), (1, 1), (2, 2)]
  | true => ![(1, 0), if flip then (3, 2) else (2, 1), (0, 2)]

/-- An edge of a part: common to another part of the same triangle, or half of an edge of the triangle. -/
def kind (flip : Bool) : Fin 4 → Fin 3 → Sum (Fin 4 × Fin 3) (Bool × Fin 3) :=
  match flip with
  | false => ![![.inr (false, 0), .inl (3, 1), .inr (true, 2)], ![.inr (true, 0), .inr (false, 1), .inl (3, 2)],
      ![.inl (3, 0), .inr (true, 1), .inr (false, 2)], ![.inl (2, 0), .inl (0, 1), .inl (1, 2)]]
  | true => ![![.inr (false, 0), .inl (2, 0), .inr (true, 2)], ![.inr (true, 0), .inr (false, 1), .inl (3, 1)],
      ![.inl (0, 1), .inl (3, 0), .inr (false, 2)], ![.inl (2, 1), .inl (1, 2), .inr (true, 1)]]

theorem kind_half (f s : Bool) (j : Fin 3) : kind f (half f s j).1 (half f s j).2 = .inr (s, j) := by
  revert f s j; decide

theorem half_kind (f s : Bool) (c : Fin 4) (i j : Fin 3) (h : kind f c i = .inr (s, j)) : half f s j = (c, i) := by
  revert f s c i j; decide

theorem kind_inner (f : Bool) (c d : Fin 4) (i j : Fin 3) (h : kind f c i = .inl (d, j)) : kind f d j = .inl (c, i) := by
  revert f c i d j; decide

variable {m}
theorem part_half (A : Fin 3 → Fin 2 → ℝ) (f s : Bool) (j : Fin 3) :
    part (A 0) (A 1) (A 2) f (half f s j).1 (half f s j).2 = (if s then mid (A j) (A (j + 1)) else A j) ∧
    part (A 0) (A 1) (A 2) f (half f s j).1 ((half f s j).2 + 1) = (if s then A (j + 1) else mid (A j) (A (j + 1))) := by
  cases f <;> cases s <;> fin_cases j <;> exact ⟨rfl, rfl⟩

theorem part_inner (A B C : Fin 2 → ℝ) (f : Bool) (c d : Fin 4) (i j : Fin 3) (h : kind f c i = .inl (d, j)) :
    part A B C f d j = part A B C f c (i + 1) ∧ part A B C f d (j + 1) = part A B C f c i := by
  cases f <;> fin_cases c <;> fin_cases i <;> simp [kind] at h <;> obtain ⟨rfl, rfl⟩ := h <;> exact ⟨rfl, rfl⟩

theorem part_det (A B C : Fin 2 → ℝ) (f : Bool) (c : Fin 4) :
    det2 (part A B C f c 0) (part A B C f c 1) (part A B C f c 2) = det2 A B C / 4 := by
  cases f <;> fin_cases c <;> simp [part, mid, det2] <;> ring

variable (m)

/-- The neighbour of an edge of a part. -/
def splitNb (flip : Fin m.n → Bool) (e : (Fin m.n × Fin 4) × Fin 3) : Option ((Fin m.n × Fin 4) × Fin 3) :=
  match kind (flip e.1.1) e.1.2 e.2 with
  | .inl d => some ((e.1.1, d.1), d.2)
  | .inr h => (m.nb (e.1.1, h.2)).map fun e' => ((e'.1, (half (flip e'.1) (!h.1) e'.2).1), (half (flip e'.1) (!h.1) e'.2).2)

/-- Every triangle divided into four. -/
noncomputable def split (flip : Fin m.n → Bool) : Tri :=
  of (ι := Fin m.n × Fin 4) (fun J => part (m.v J.1 0) (m.v J.1 1) (m.v J.1 2) (flip J.1) J.2)
    (fun J => by rw [part_det]; exact div_pos (m.pos J.1) (by norm_num))
    (m.splitNb flip)
    (by
      rintro ⟨⟨K, c⟩, i⟩ e' h
      unfold splitNb at h
      simp only at h
      cases hk : kind (flip K) c i with
      | inl d =>
        rw [hk] at h
        obtain rfl := Option.some.inj h
        unfold splitNb
        simp only
        rw [kind_inner _ _ _ _ _ hk]
      | inr d =>
        obtain ⟨s, j⟩ := d
        rw [hk] at h
        obtain ⟨p, h1, rfl⟩ := Option.map_eq_some_iff.1 h
        unfold splitNb
        simp only
        rw [kind_half]
        simp only [Bool.not_not]
        rw [m.sym _ _ h1]
        simp [half_kind _ _ _ _ _ hk])
    (by
      rintro ⟨⟨K, c⟩, i⟩ e' h
      unfold splitNb at h
      simp only at h
      cases hk : kind (flip K) c i with
      | inl d =>
        rw [hk] at h
        obtain rfl := Option.some.inj h
        exact part_inner _ _ _ _ _ _ _ _ hk
      | inr d =>
        obtain ⟨s, j⟩ := d
        rw [hk] at h
        obtain ⟨p, h1, rfl⟩ := Option.map_eq_some_iff.1 h
        have g := m.glue _ _ h1
        have a := part_half (m.v K) (flip K) s j
        have b := part_half (m.v p.1) (flip p.1) (!s) p.2
        rw [half_kind _ _ _ _ _ hk] at a
        simp only at g a ⊢
        rw [b.1, b.2, a.1, a.2, g.1, g.2]
        cases s <;> simp [mid_comm])

/-- The number of a longest edge of triangle `K`. -/
noncomputable def longest (K : Fin m.n) : Fin 3 :=
  if len (m := m) (K, 1) ≤ len (m := m) (K, 0) ∧ len (m := m) (K, 2) ≤ len (m := m) (K, 0) then 0
  else if len (m := m) (K, 2) ≤ len (m := m) (K, 1) then 1 else 2

/-- The shortest edge of triangle `K` is shorter than `√2 / 2` times the longest. -/
noncomputable def slim (K : Fin m.n) : Bool :=
  decide (min (min (len (m := m) (K, 0)) (len (m := m) (K, 1))) (len (m := m) (K, 2)) < √2 / 2 * m.diam K)

/-- `refine(mesh, edges)` with all edges of the mesh. -/
noncomputable def refine : Tri := (m.turn m.longest).split m.slim

end Tri
end Dxss
