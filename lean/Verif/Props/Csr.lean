import Verif.Props.Drivers

/-!
# C48: the entries of the converted matrix, from its rows
-/

namespace Dxss
open Finset

/-- The three arrays list the rows `R` (pairs of a column and a value) one after another. -/
structure PCsr.Lists (A : PCsr) (R : List (List (ℕ × ℝ))) : Prop where
  rows : A.rows = R.length
  ptr_len : A.ptr.length = R.length + 1
  ptr : ∀ i ≤ R.length, A.ptr.getD i 0 = ((R.take i).map List.length).sum
  col : A.col = R.flatten.map Prod.fst
  val : A.val = R.flatten.map Prod.snd
  col_lt : ∀ p ∈ R.flatten, p.1 < A.cols

theorem PCsr.Lists.ok {A : PCsr} {R : List (List (ℕ × ℝ))} (h : A.Lists R) : A.Ok where
  ptr_len := by rw [h.ptr_len, h.rows]
  ptr_zero := by rw [h.ptr 0 (Nat.zero_le _)]; rfl
  ptr_mono i hi := by
    rw [h.rows] at hi
    rw [h.ptr i hi.le, h.ptr (i + 1) hi, List.take_add_one, List.map_append, List.sum_append]
    exact Nat.le_add_right _ _
  ptr_last := by
    rw [h.rows, h.ptr _ le_rfl, List.take_length, h.col, List.length_map, List.length_flatten]
  val_len := by rw [h.val, h.col, List.length_map, List.length_map]
  col_lt c hc := by
    rw [h.col, List.mem_map] at hc
    obtain ⟨p, hp, rfl⟩ := hc
    exact h.col_lt p hp

theorem sum_range_getD {α : Type} (F : α → ℝ) (d : α) : ∀ l : List α, ∑ k ∈ range l.length, F (l.getD k d) = (l.map F).sum
  | [] => by simp
  | a :: l => by
    rw [List.length_cons, sum_range_succ', List.map_cons, List.sum_cons, ← sum_range_getD F d l]
    simp only [List.getD_cons_succ, List.getD_cons_zero]
    ring

/-- C48.  Entry `(i, j)` of the converted matrix is the sum of the values stored for column `j` in row `i`. -/
theorem C48_entries {A : PCsr} {R : List (List (ℕ × ℝ))} (h : A.Lists R) {S : SCsr} (hS : getSparseMatrix A = .ok S) {i : ℕ}
    (hi : i < R.length) (j : ℕ) : csrEntry S.ptr S.col S.val i j = (R[i].map fun p => if p.1 = j then p.2 else 0).sum := by
  have hne : A.col ≠ [] := by
    intro h0
    rw [(C48_conversion A h.ok).1 h0] at hS
    cases hS
  obtain ⟨S', m, h', -, -, -, -, he⟩ := (C48_conversion A h.ok).2 hne
  rw [hS] at h'
  cases h'
  rw [he]
  unfold csrEntry
  have hsplit : R.flatten = (R.take i).flatten ++ (R[i] ++ (R.drop (i + 1)).flatten) := by
    conv_lhs => rw [← List.take_append_drop i R, List.flatten_append, List.drop_eq_getElem_cons hi, List.flatten_cons]
  have hlen : (R.take i).flatten.length = ((R.take i).map List.length).sum := List.length_flatten
  rw [h.ptr i hi.le, h.ptr (i + 1) hi, List.take_add_one, List.map_append, List.sum_append, sum_Ico_eq_sum_range, Nat.add_sub_cancel_left,
    List.getElem?_eq_getElem hi]
  simp only [Option.toList_some, List.map_cons, List.map_nil, List.sum_cons, List.sum_nil, add_zero]
  rw [← sum_range_getD (fun p : ℕ × ℝ => if p.1 = j then p.2 else 0) (0, 0) R[i]]
  refine sum_congr rfl fun k hk => ?_
  have hk' := mem_range.1 hk
  have e : R.flatten[((R.take i).map List.length).sum + k]? = R[i][k]? := by
    rw [hsplit, ← hlen, List.getElem?_append_right (Nat.le_add_right _ _), Nat.add_sub_cancel_left, List.getElem?_append_left hk']
  rw [h.col, h.val, List.getD_eq_getElem?_getD, List.getD_eq_getElem?_getD, List.getD_eq_getElem?_getD, List.getElem?_map, List.getElem?_map, e,
    List.getElem?_eq_getElem hk']
  rfl

/-- A matrix with two rows, `(2, 0, 3)` and `(0, 5, 0)`: entry `(0, 2)` is 3. -/
example : ∃ A : PCsr, A.Lists [[(0, 2), (2, 3)], [(1, 5)]] ∧ ∃ S, getSparseMatrix A = .ok S ∧ csrEntry S.ptr S.col S.val 0 2 = 3 := by
  have hA : PCsr.Lists ⟨2, 3, [0, 2, 3], [0, 2, 1], [2, 3, 5]⟩ [[(0, 2), (2, 3)], [(1, 5)]] :=
    { rows := rfl, ptr_len := rfl, ptr := by intro i (hi : i ≤ 2); interval_cases i <;> rfl, col := rfl, val := rfl,
      col_lt := by simp }
  obtain ⟨S, m, h, -⟩ := (C48_conversion _ hA.ok).2 (by simp)
  refine ⟨_, hA, S, h, ?_⟩
  rw [C48_entries hA h (by simp)]
  norm_num

end Dxss
