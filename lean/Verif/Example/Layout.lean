import Verif.Lemmas.MatrixFree
import Verif.Props.Forms

/-!
# A concrete dof layout and configuration

`stdSpace` numbers the dofs of a mixed space component by component, interleaving the
sub-components of a component.  Used only to show that hypotheses on configurations can be met.
-/

namespace Dxss.Example
open Finset

/-- first dof of component `c` -/
def off (n m : Fin 4 → ℕ) : Fin 4 → ℕ :=
  ![0, n 0 * m 0, n 0 * m 0 + n 1 * m 1, n 0 * m 0 + n 1 * m 1 + n 2 * m 2]

def stdSpace (n m : Fin 4 → ℕ) : FSpace where
  size := n 0 * m 0 + n 1 * m 1 + n 2 * m 2 + n 3 * m 3
  nsub := n
  collapse c i := (List.range (m c)).map fun s => off n m c + (s * n c + i)

theorem stdSpace_dof {n m : Fin 4 → ℕ} {c : Fin 4} {i s : ℕ} (hs : s < m c) :
    (stdSpace n m).dof c i s = off n m c + (s * n c + i) := by
  simp [FSpace.dof, stdSpace, hs]

theorem cell_lt {n m i s : ℕ} (hi : i < n) (hs : s < m) : s * n + i < n * m := by
  calc s * n + i < s * n + n := by omega
    _ = (s + 1) * n := by ring
    _ ≤ m * n := Nat.mul_le_mul_right _ hs
    _ = n * m := by ring

theorem cell_inj {n i s i' s' : ℕ} (hi : i < n) (hi' : i' < n) (h : s * n + i = s' * n + i') :
    i = i' ∧ s = s' := by
  have h1 : (s * n + i) % n = i := by rw [Nat.mul_add_mod_self_right, Nat.mod_eq_of_lt hi]
  have h2 : (s' * n + i') % n = i' := by rw [Nat.mul_add_mod_self_right, Nat.mod_eq_of_lt hi']
  have h3 : (s * n + i) / n = s := by
    rw [mul_comm, Nat.mul_add_div (by omega), Nat.div_eq_of_lt hi, add_zero]
  have h4 : (s' * n + i') / n = s' := by
    rw [mul_comm, Nat.mul_add_div (by omega), Nat.div_eq_of_lt hi', add_zero]
  exact ⟨by rw [← h1, h, h2], by rw [← h3, h, h4]⟩

theorem cell_surj {n m d : ℕ} (h : d < n * m) : ∃ i s, i < n ∧ s < m ∧ s * n + i = d := by
  have hn : 0 < n := Nat.pos_of_ne_zero (by rintro rfl; simp at h)
  refine ⟨d % n, d / n, Nat.mod_lt _ hn, Nat.div_lt_of_lt_mul h, ?_⟩
  rw [mul_comm]; exact Nat.div_add_mod d n

theorem stdSpace_ok (n m : Fin 4 → ℕ) : (stdSpace n m).Ok m where
  len c i _ := by simp [stdSpace]
  lt c i s hi hs := by
    rw [stdSpace_dof hs]
    have := cell_lt (n := n c) hi hs
    fin_cases c <;> simp [off, stdSpace] at this ⊢ <;> omega
  inj c i s c' i' s' hi hs hi' hs' h := by
    rw [stdSpace_dof hs, stdSpace_dof hs'] at h
    have h1 := cell_lt (n := n c) hi hs
    have h2 := cell_lt (n := n c') hi' hs'
    have hc : c = c' := by
      fin_cases c <;> fin_cases c' <;> simp [off] at h h1 h2 ⊢ <;> omega
    subst hc
    exact ⟨rfl, cell_inj (n := n c) hi hi' (by omega)⟩
  surj d hd := by
    have aux : ∀ c : Fin 4, off n m c ≤ d → d < off n m c + n c * m c →
        ∃ c i s, i < (stdSpace n m).nsub c ∧ s < m c ∧ (stdSpace n m).dof c i s = d := by
      intro c h1 h2
      obtain ⟨i, s, hi, hs, e⟩ := cell_surj (n := n c) (m := m c) (d := d - off n m c) (by omega)
      exact ⟨c, i, s, hi, hs, by rw [stdSpace_dof hs, e]; omega⟩
    simp only [stdSpace] at hd
    by_cases h0 : d < n 0 * m 0
    · exact aux 0 (by simp [off]) (by simpa [off] using h0)
    by_cases h1 : d < n 0 * m 0 + n 1 * m 1
    · exact aux 1 (by simp [off]; omega) (by simpa [off] using h1)
    by_cases h2 : d < n 0 * m 0 + n 1 * m 1 + n 2 * m 2
    · exact aux 2 (by simp [off]; omega) (by simpa [off] using h2)
    · exact aux 3 (by simp [off]; omega) (by simpa [off] using hd)

open Polynomial

/-- Linear elements: two basis functions for the primal, one (constant) for the dual variable. -/
noncomputable def fe : FE ℝ[X] where
  mP := 2
  bP s := if s = 0 then 1 - X else X
  mD := 1
  bD _ := 1

noncomputable def cfg (fw wp : Bool) : Cfg ℝ[X] where
  S := polySpace
  D := disc fw wp
  fe := fe
  full := stdSpace (fullSizes 1 1 2) fe.m
  slab := stdSpace (slabSizes 1 1) fe.m
  coup := stdSpace couplingSizes fe.m
  bnd := stdSpace bndSizes fe.m
  pts := []
  ws := []
  T := 1
  dsol _ := 0
  ptsHo := []
  wsHo := []
  samples := []

theorem cfg_ok (fw wp : Bool) : (cfg fw wp).Ok where
  disc := disc_ok fw wp
  full := stdSpace_ok _ _
  fullN := rfl
  slab := stdSpace_ok _ _
  slabN := rfl
  coup := stdSpace_ok _ _
  coupN := rfl
  bnd := stdSpace_ok _ _
  bndN := rfl

end Dxss.Example
