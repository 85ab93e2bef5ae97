import Verif.Lemmas.Grid
import Verif.Lemmas.Sine1

/-! # Green's formula on a grid of boxes -/

namespace Dxss
open Finset MeasureTheory

namespace Grid
variable {n : ℕ} (m : Grid n)

/-- Broken functions which are continuous. -/
def Conforming (v : m.Broken) : Prop :=
  ∀ (I : m.Cell) (a : Fin (n + 1)) (h : (I a).1 + 1 < (m.axis a).n), ∀ y ∈ Set.Icc (a.removeNth (lo I)) (a.removeNth (hi I)),
    (v I).1 (a.insertNth (hi I a) y) = (v (next a I h)).1 (a.insertNth (hi I a) y)

theorem conforming_of_lagrange {k : ℕ} {v : m.Broken} (h : v ∈ m.lagrange k) : m.Conforming v := (m.mem_lagrange.1 h).2

theorem line_conforming {v : m.Broken} (hv : m.Conforming v) {a : Fin (n + 1)} (J : m.Line a) {y : Fin n → ℝ} (hy : y ∈ J.box) :
    (m.axis a).Conforming (J.fn y v) := by
  intro i hi
  rw [(m.axis a).cell_apply (show i < _ by omega), (m.axis a).cell_apply hi]
  have h : (J.cell ⟨i, by omega⟩ a).1 + 1 < (m.axis a).n := by rw [J.cell_same]; exact hi
  have := hv (J.cell ⟨i, by omega⟩) a h y (by rw [J.box_eq]; exact hy)
  rw [J.next_cell, J.hi_same] at this
  exact this

/-- The partial derivative, cell by cell. -/
noncomputable def dfn (b : Fin (n + 1)) (u : m.Broken) : m.Broken := fun I => AnaD.pd b (u I)

theorem stiff_eq (u v : m.Broken) : m.space.stiff u v = ∑ b, m.space.mass (m.dfn b u) (m.dfn b v) := by
  rw [space_stiff, sum_comm]
  exact sum_congr rfl fun b _ => (m.space_mass _ _).symm

theorem line_dfn {a : Fin (n + 1)} (J : m.Line a) (y : Fin n → ℝ) (u v : m.Broken) :
    (m.axis a).space.mass (J.fn y (m.dfn a u)) (J.fn y (m.dfn a v)) = (m.axis a).space.stiff (J.fn y u) (J.fn y v) := by
  rw [Mesh1.space_mass, Mesh1.space_stiff]
  refine sum_congr rfl fun i hi => ?_
  have hi := mem_range.1 hi
  simp only [(m.axis a).cell_apply hi]
  refine intervalIntegral.integral_congr fun s _ => ?_
  simp only [Line.fn]
  rw [AnaD.line_deriv, AnaD.line_deriv]
  rfl

theorem line_mass_continuous {a : Fin (n + 1)} (J : m.Line a) (u v : m.Broken) :
    Continuous fun y => (m.axis a).space.mass (J.fn y u) (J.fn y v) := by
  simp only [m.line_mass]
  exact continuous_finsetSum _ fun i _ => line_mass_cont _ _ _ _

/-- The boundary fluxes in direction `a`, integrated over the lines. -/
theorem nit_lines (a : Fin (n + 1)) (u v : m.Broken) :
    ∑ I : m.Cell, ((if (I a).1 + 1 = (m.axis a).n then m.faceInt a (hi I a) I (AnaD.pd a (u I)).1 (v I).1 else 0)
      - (if (I a).1 = 0 then m.faceInt a (lo I a) I (AnaD.pd a (u I)).1 (v I).1 else 0))
      = ∑ J : m.Line a, ∫ y in J.box, (m.axis a).space.nit (J.fn y u) (J.fn y v) := by
  rw [m.sum_cells a]
  refine sum_congr rfl fun J _ => ?_
  have hl : (m.axis a).n - 1 + 1 = (m.axis a).n := Nat.sub_add_cancel (m.axis a).pos
  have e1 : ∑ i, (if (J.cell i a).1 + 1 = (m.axis a).n then
      m.faceInt a (hi (J.cell i) a) (J.cell i) (AnaD.pd a (u (J.cell i))).1 (v (J.cell i)).1 else 0)
      = ∫ y in J.box, (AnaD.line a y (AnaD.pd a (u (J.cell ⟨_, m.last_lt a⟩)))).1 ((m.axis a).x (m.axis a).n)
        * (AnaD.line a y (v (J.cell ⟨_, m.last_lt a⟩))).1 ((m.axis a).x (m.axis a).n) := by
    rw [sum_eq_single (⟨_, m.last_lt a⟩ : Fin (m.axis a).n)]
    · rw [if_pos (by rw [J.cell_same]; exact hl), J.hi_same, m.faceInt_line J,
        show ((⟨(m.axis a).n - 1, m.last_lt a⟩ : Fin (m.axis a).n) : ℕ) + 1 = (m.axis a).n from hl]
    · intro i _ hi
      refine if_neg fun h => hi (Fin.ext ?_)
      rw [J.cell_same] at h
      change i.1 = (m.axis a).n - 1
      omega
    · exact fun h => absurd (mem_univ _) h
  have e2 : ∑ i, (if (J.cell i a).1 = 0 then
      m.faceInt a (lo (J.cell i) a) (J.cell i) (AnaD.pd a (u (J.cell i))).1 (v (J.cell i)).1 else 0)
      = ∫ y in J.box, (AnaD.line a y (AnaD.pd a (u (J.cell ⟨0, (m.axis a).pos⟩)))).1 ((m.axis a).x 0)
        * (AnaD.line a y (v (J.cell ⟨0, (m.axis a).pos⟩))).1 ((m.axis a).x 0) := by
    rw [sum_eq_single (⟨0, (m.axis a).pos⟩ : Fin (m.axis a).n)]
    · rw [if_pos (by rw [J.cell_same]), J.lo_same, m.faceInt_line J]
    · intro i _ hi
      refine if_neg fun h => hi (Fin.ext ?_)
      rwa [J.cell_same] at h
    · exact fun h => absurd (mem_univ _) h
  rw [sum_sub_distrib, e1, e2]
  refine (integral_sub (m.box_int J ((line_cont' _ _).mul (line_cont' _ _)))
    (m.box_int J ((line_cont' _ _).mul (line_cont' _ _)))).symm.trans (integral_congr_ae (Filter.Eventually.of_forall fun y => ?_))
  simp only []
  rw [Mesh1.space_nit, (m.axis a).cell_apply (m.axis a).pos, (m.axis a).cell_apply (m.last_lt a),
    (m.axis a).cell_apply (m.axis a).pos, (m.axis a).cell_apply (m.last_lt a)]
  simp only [Line.fn]
  rw [AnaD.line_deriv, AnaD.line_deriv]
  rfl

theorem line_fn {a : Fin (n + 1)} (J : m.Line a) (y : Fin n → ℝ) (f : AnaD (n + 1)) :
    J.fn y (m.fn (AnaD.pd a (AnaD.pd a f))) = (m.axis a).fn (anaDeriv (anaDeriv (AnaD.line a y f))) := by
  have h : ∀ f : AnaD (n + 1), anaDeriv (AnaD.line a y f) = AnaD.line a y (AnaD.pd a f) := fun f =>
    Subtype.ext (funext fun s => AnaD.line_deriv a y f s)
  rw [h, h]
  rfl

/-- Green's formula on a grid, for a smooth function and a continuous one. -/
theorem green (f : AnaD (n + 1)) {v : m.Broken} (hv : m.Conforming v) :
    m.space.mass (m.fn (∑ b, AnaD.pd b (AnaD.pd b f))) v + m.space.stiff (m.fn f) v - m.space.nit (m.fn f) v = 0 := by
  have e0 : m.space.mass (m.fn (∑ b, AnaD.pd b (AnaD.pd b f))) v = ∑ b, m.space.mass (m.fn (AnaD.pd b (AnaD.pd b f))) v := by
    rw [← LinearMap.sum_apply, ← map_sum]
    congr 2
    funext I
    rw [Finset.sum_apply]; rfl
  rw [e0, stiff_eq, space_nit, ← sum_add_distrib, ← sum_sub_distrib]
  refine sum_eq_zero fun b _ => ?_
  rw [sub_eq_zero, m.nit_lines b, m.mass_lines b, m.mass_lines b, ← sum_add_distrib]
  refine sum_congr rfl fun J _ => ?_
  rw [← integral_add (m.box_int J (m.line_mass_continuous J _ _)) (m.box_int J (m.line_mass_continuous J _ _))]
  refine setIntegral_congr_fun (m.box_compact J).isClosed.measurableSet fun y hy => ?_
  simp only [m.line_dfn, m.line_fn]
  exact sub_eq_zero.1 ((m.axis b).green (AnaD.line b y f) (m.line_conforming hv J hy))

end Grid
end Dxss
