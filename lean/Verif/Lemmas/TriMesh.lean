import Verif.Lemmas.TriSquare
import Verif.Model.TriRefine
import Verif.Props.Wave2

/-! # The unit square, divided into `k × k` squares each of which is cut along a diagonal -/

namespace Dxss
open Finset MeasureTheory
namespace Tri

section
variable {k : ℕ}

/-- The square in column `i` and row `j`; `false`: the triangle below the diagonal. -/
abbrev GIdx (k : ℕ) := Fin k × Fin k × Bool

/-- The point with coordinates `i / k`, `j / k`. -/
noncomputable def gpt (k i j : ℕ) : Fin 2 → ℝ := ![(i:ℝ) / k, (j:ℝ) / k]

noncomputable def gv : GIdx k → Fin 3 → Fin 2 → ℝ
  | (i, j, false) => ![gpt k i j, gpt k (i + 1) j, gpt k (i + 1) (j + 1)]
  | (i, j, true) => ![gpt k i j, gpt k (i + 1) (j + 1), gpt k i (j + 1)]

def gnb : GIdx k × Fin 3 → Option (GIdx k × Fin 3)
  | ((i, j, false), 0) => if h : 0 < j.1 then some ((i, ⟨j.1 - 1, by omega⟩, true), 1) else none
  | ((i, j, false), 1) => if h : i.1 + 1 < k then some ((⟨i.1 + 1, h⟩, j, true), 2) else none
  | ((i, j, false), 2) => some ((i, j, true), 0)
  | ((i, j, true), 0) => some ((i, j, false), 2)
  | ((i, j, true), 1) => if h : j.1 + 1 < k then some ((i, ⟨j.1 + 1, h⟩, false), 0) else none
  | ((i, j, true), 2) => if h : 0 < i.1 then some ((⟨i.1 - 1, by omega⟩, j, false), 1) else none

theorem gv_pos (hk : 0 < k) (K : GIdx k) : det2 (gv K 0) (gv K 1) (gv K 2) = 1 / (k:ℝ) ^ 2 := by
  have h : (k:ℝ) ≠ 0 := by exact_mod_cast hk.ne'
  obtain ⟨i, j, b⟩ := K
  cases b <;> simp [gv, det2, gpt] <;> field_simp <;> ring

theorem gnb_sym (e e' : GIdx k × Fin 3) (h : gnb e = some e') : gnb e' = some e := by
  obtain ⟨⟨i, j, b⟩, c⟩ := e
  cases b <;> fin_cases c
  · simp only [gnb] at h
    split at h
    · rename_i h0
      obtain rfl := Option.some.inj h
      simp only [gnb]
      rw [dif_pos (by have := j.2; omega)]
      simp only [Option.some.injEq, Prod.mk.injEq, and_true, true_and]
      refine ⟨?_, rfl⟩
      exact Fin.ext (by simp only; omega)
    · simp at h
  · simp only [gnb] at h
    split at h
    · rename_i h0
      obtain rfl := Option.some.inj h
      simp only [gnb]
      rw [dif_pos (by omega)]
      rfl
    · simp at h
  · simp only [gnb] at h
    obtain rfl := Option.some.inj h
    rfl
  · simp only [gnb] at h
    obtain rfl := Option.some.inj h
    rfl
  · simp only [gnb] at h
    split at h
    · rename_i h0
      obtain rfl := Option.some.inj h
      simp only [gnb]
      rw [dif_pos (by omega)]
      rfl
    · simp at h
  · simp only [gnb] at h
    split at h
    · rename_i h0
      obtain rfl := Option.some.inj h
      simp only [gnb]
      rw [dif_pos (by have := i.2; omega)]
      simp only [Option.some.injEq, Prod.mk.injEq, and_true]
      refine ⟨?_, rfl⟩
      exact Fin.ext (by simp only; omega)
    · simp at h

theorem gnb_glue (e e' : GIdx k × Fin 3) (h : gnb e = some e') : gv e'.1 e'.2 = gv e.1 (e.2 + 1) ∧ gv e'.1 (e'.2 + 1) = gv e.1 e.2 := by
  obtain ⟨⟨i, j, b⟩, c⟩ := e
  cases b <;> fin_cases c
  · simp only [gnb] at h
    split at h
    · rename_i h0
      obtain rfl := Option.some.inj h
      have : j.1 - 1 + 1 = j.1 := by omega
      constructor
      · change gpt k (i + 1) (j.1 - 1 + 1) = gpt k (i + 1) j; rw [this]
      · change gpt k i (j.1 - 1 + 1) = gpt k i j; rw [this]
    · simp at h
  · simp only [gnb] at h
    split at h
    · rename_i h0
      obtain rfl := Option.some.inj h
      exact ⟨rfl, rfl⟩
    · simp at h
  · simp only [gnb] at h
    obtain rfl := Option.some.inj h
    exact ⟨rfl, rfl⟩
  · simp only [gnb] at h
    obtain rfl := Option.some.inj h
    exact ⟨rfl, rfl⟩
  · simp only [gnb] at h
    split at h
    · rename_i h0
      obtain rfl := Option.some.inj h
      exact ⟨rfl, rfl⟩
    · simp at h
  · simp only [gnb] at h
    split at h
    · rename_i h0
      obtain rfl := Option.some.inj h
      have : i.1 - 1 + 1 = i.1 := by omega
      constructor
      · change gpt k (i.1 - 1 + 1) j = gpt k i j; rw [this]
      · change gpt k (i.1 - 1 + 1) (j + 1) = gpt k i (j + 1); rw [this]
    · simp at h

/-- The triangulation of the unit square. -/
noncomputable def squares (k : ℕ) (hk : 0 < k) : Tri :=
  of (ι := GIdx k) gv (fun K => by rw [gv_pos hk]; positivity) gnb gnb_sym gnb_glue

end
/-! ### The triangles as sets -/

theorem hull_low {a b h : ℝ} (hh : 0 < h) : hull ![a, b] ![a + h, b] ![a + h, b + h] = {x | b ≤ x 1 ∧ x 1 - b ≤ x 0 - a ∧ x 0 ≤ a + h} := by
  rw [hull_eq]
  ext x
  constructor
  · rintro ⟨p, ⟨p0, p1, p2⟩, rfl⟩
    have e : refPt ![a, b] ![a + h, b] ![a + h, b + h] (p 0) (p 1) = ![a + p 0 * h + p 1 * h, b + p 1 * h] := by
      funext c; fin_cases c <;> simp [refPt]
    change refPt ![a, b] ![a + h, b] ![a + h, b + h] (p 0) (p 1) ∈ _
    rw [e]
    simp only [Set.mem_ofPred_eq, Matrix.cons_val_zero, Matrix.cons_val_one]
    have q0 := mul_nonneg p0 hh.le
    have q1 := mul_nonneg p1 hh.le
    have q2 := mul_le_mul_of_nonneg_right p2 hh.le
    exact ⟨by linarith, by linarith, by linarith⟩
  · rintro ⟨h0, h1, h2⟩
    have e1 : ∀ y : ℝ, y / h * h = y := fun y => div_mul_cancel₀ y hh.ne'
    refine ⟨![(x 0 - a - (x 1 - b)) / h, (x 1 - b) / h], ⟨div_nonneg (by linarith) hh.le, div_nonneg (by linarith) hh.le, ?_⟩, ?_⟩
    · change (x 0 - a - (x 1 - b)) / h + (x 1 - b) / h ≤ 1
      rw [← add_div, div_le_one hh]
      linarith
    · funext c
      fin_cases c
      · simp [refPt, e1]; ring
      · simp [refPt, e1]

theorem hull_up {a b h : ℝ} (hh : 0 < h) : hull ![a, b] ![a + h, b + h] ![a, b + h] = {x | a ≤ x 0 ∧ x 0 - a ≤ x 1 - b ∧ x 1 ≤ b + h} := by
  rw [hull_eq]
  ext x
  constructor
  · rintro ⟨p, ⟨p0, p1, p2⟩, rfl⟩
    have e : refPt ![a, b] ![a + h, b + h] ![a, b + h] (p 0) (p 1) = ![a + p 0 * h, b + p 0 * h + p 1 * h] := by
      funext c; fin_cases c <;> simp [refPt]
    change refPt ![a, b] ![a + h, b + h] ![a, b + h] (p 0) (p 1) ∈ _
    rw [e]
    simp only [Set.mem_ofPred_eq, Matrix.cons_val_zero, Matrix.cons_val_one]
    have q0 := mul_nonneg p0 hh.le
    have q1 := mul_nonneg p1 hh.le
    have q2 := mul_le_mul_of_nonneg_right p2 hh.le
    exact ⟨by linarith, by linarith, by linarith⟩
  · rintro ⟨h0, h1, h2⟩
    have e1 : ∀ y : ℝ, y / h * h = y := fun y => div_mul_cancel₀ y hh.ne'
    refine ⟨![(x 0 - a) / h, (x 1 - b - (x 0 - a)) / h], ⟨div_nonneg (by linarith) hh.le, div_nonneg (by linarith) hh.le, ?_⟩, ?_⟩
    · change (x 0 - a) / h + (x 1 - b - (x 0 - a)) / h ≤ 1
      rw [← add_div, div_le_one hh]
      linarith
    · funext c
      fin_cases c <;> simp [refPt, e1]

theorem line_null (α β γ : ℝ) (h : α ≠ 0 ∨ β ≠ 0) : volume {x : Fin 2 → ℝ | α * x 0 + β * x 1 = γ} = 0 := by
  let s : AffineSubspace ℝ (Fin 2 → ℝ) :=
    { carrier := {x | α * x 0 + β * x 1 = γ}
      smul_vsub_vadd_mem' := by
        intro c p q r hp hq hr
        change α * (c * (p 0 - q 0) + r 0) + β * (c * (p 1 - q 1) + r 1) = γ
        change α * p 0 + β * p 1 = γ at hp
        change α * q 0 + β * q 1 = γ at hq
        change α * r 0 + β * r 1 = γ at hr
        linear_combination c * hp - c * hq + hr }
  refine Measure.addHaar_affineSubspace volume s fun hs => ?_
  have mem : ∀ x : Fin 2 → ℝ, α * x 0 + β * x 1 = γ := fun x => by
    have : x ∈ s := hs ▸ AffineSubspace.mem_top ℝ _ x
    exact this
  have h0 := mem ![0, 0]
  have h1 := mem ![1, 0]
  have h2 := mem ![0, 1]
  simp at h0 h1 h2
  rcases h with h | h
  · exact h (by linarith)
  · exact h (by linarith)

variable {k : ℕ} {hk : 0 < k}

/-- Points of the square in column `i` and row `j` on one side of the diagonal. -/
def gset (k : ℕ) : GIdx k → Set (Fin 2 → ℝ)
  | (i, j, false) => {x | (j:ℝ) / k ≤ x 1 ∧ x 1 - (j:ℝ) / k ≤ x 0 - (i:ℝ) / k ∧ x 0 ≤ (i:ℝ) / k + 1 / k}
  | (i, j, true) => {x | (i:ℝ) / k ≤ x 0 ∧ x 0 - (i:ℝ) / k ≤ x 1 - (j:ℝ) / k ∧ x 1 ≤ (j:ℝ) / k + 1 / k}

theorem gpt_succ (i j : ℕ) : gpt k (i + 1) j = ![(i:ℝ) / k + 1 / k, (j:ℝ) / k] ∧ gpt k i (j + 1) = ![(i:ℝ) / k, (j:ℝ) / k + 1 / k]
    ∧ gpt k (i + 1) (j + 1) = ![(i:ℝ) / k + 1 / k, (j:ℝ) / k + 1 / k] := by
  unfold gpt
  push_cast
  rw [add_div, add_div]
  exact ⟨rfl, rfl, rfl⟩

theorem gset_eq (hk : 0 < k) (K : GIdx k) : hull (gv K 0) (gv K 1) (gv K 2) = gset k K := by
  have h : (0:ℝ) < 1 / k := by have : (0:ℝ) < k := by exact_mod_cast hk
                               positivity
  obtain ⟨i, j, b⟩ := K
  obtain ⟨e1, e2, e3⟩ := gpt_succ (k := k) i j
  cases b
  · change hull (gpt k i j) (gpt k (i + 1) j) (gpt k (i + 1) (j + 1)) = _
    rw [e1, e3]; exact hull_low h
  · change hull (gpt k i j) (gpt k (i + 1) (j + 1)) (gpt k i (j + 1)) = _
    rw [e2, e3]; exact hull_up h

theorem gset_box {K : GIdx k} {x : Fin 2 → ℝ} (hx : x ∈ gset k K) : (K.1:ℝ) / k ≤ x 0 ∧ x 0 ≤ (K.1:ℝ) / k + 1 / k ∧
    (K.2.1:ℝ) / k ≤ x 1 ∧ x 1 ≤ (K.2.1:ℝ) / k + 1 / k := by
  obtain ⟨i, j, b⟩ := K
  cases b <;> obtain ⟨h0, h1, h2⟩ := hx <;> exact ⟨by simp only; linarith, by simp only; linarith, by simp only; linarith, by simp only; linarith⟩

theorem slab_of (hk : 0 < k) {y : ℝ} (h0 : 0 ≤ y) (h1 : y ≤ 1) : ∃ i : Fin k, (i:ℝ) / k ≤ y ∧ y ≤ (i:ℝ) / k + 1 / k := by
  have hkR : (0:ℝ) < k := by exact_mod_cast hk
  have e : ∀ i : ℕ, (i:ℝ) / k + 1 / k = (i + 1) / k := fun i => by rw [add_div]
  by_cases hy : y = 1
  · refine ⟨⟨k - 1, by omega⟩, ?_⟩
    have : ((k - 1 : ℕ) : ℝ) = k - 1 := by rw [Nat.cast_sub hk]; simp
    rw [e]
    simp only [this]
    rw [hy, div_le_one hkR, sub_add_cancel, div_self hkR.ne']
    exact ⟨by linarith, le_rfl⟩
  · have h2 : y < 1 := lt_of_le_of_ne h1 hy
    have hf := Nat.floor_le (a := y * k) (by positivity)
    have hf' := Nat.lt_floor_add_one (y * k)
    refine ⟨⟨⌊y * k⌋₊, ?_⟩, ?_⟩
    · rw [Nat.floor_lt (by positivity)]
      exact mul_lt_of_lt_one_left hkR h2
    · rw [e]
      simp only
      rw [div_le_iff₀ hkR, le_div_iff₀ hkR]
      exact ⟨hf, hf'.le⟩

theorem slab_sep {i j : Fin k} (hij : i < j) : (i:ℝ) / k + 1 / k ≤ (j:ℝ) / k := by
  rw [← add_div]
  have : ((i:ℕ):ℝ) + 1 ≤ (j:ℕ) := by exact_mod_cast hij
  gcongr

theorem squares_tri (K : GIdx k) : (squares k hk).tri (Fintype.equivFin (GIdx k) K) = gset k K := by
  rw [← gset_eq hk]
  have e : (squares k hk).v (Fintype.equivFin (GIdx k) K) = gv K := congrArg gv (Equiv.symm_apply_apply _ K)
  unfold tri
  rw [e]

theorem gset_disj {K L : GIdx k} (h : K ≠ L) : volume (gset k K ∩ gset k L) = 0 := by
  by_cases h0 : K.1 = L.1
  · by_cases h1 : K.2.1 = L.2.1
    · refine measure_mono_null (t := {x | 1 * x 0 + (-1) * x 1 = (K.1:ℝ) / k - (K.2.1:ℝ) / k}) ?_ (line_null _ _ _ (by norm_num))
      rintro x ⟨hx, hy⟩
      obtain ⟨i, j, b⟩ := K
      obtain ⟨i', j', b'⟩ := L
      simp only at h0 h1
      subst h0 h1
      change 1 * x 0 + (-1) * x 1 = (i:ℝ) / k - (j:ℝ) / k
      cases b <;> cases b'
      · exact absurd rfl h
      · obtain ⟨-, a, -⟩ := hx; obtain ⟨-, b, -⟩ := hy; linarith
      · obtain ⟨-, a, -⟩ := hx; obtain ⟨-, b, -⟩ := hy; linarith
      · exact absurd rfl h
    · rcases lt_or_gt_of_ne h1 with hl | hl
      · refine measure_mono_null (t := {x | 0 * x 0 + 1 * x 1 = (L.2.1:ℝ) / k}) ?_ (line_null _ _ _ (by norm_num))
        rintro x ⟨hx, hy⟩
        have a := gset_box hx; have b := gset_box hy; have c := slab_sep hl
        change 0 * x 0 + 1 * x 1 = (L.2.1:ℝ) / k
        linarith [a.2.2.2, b.2.2.1, a.2.2.1, b.2.2.2]
      · refine measure_mono_null (t := {x | 0 * x 0 + 1 * x 1 = (K.2.1:ℝ) / k}) ?_ (line_null _ _ _ (by norm_num))
        rintro x ⟨hx, hy⟩
        have a := gset_box hx; have b := gset_box hy; have c := slab_sep hl
        change 0 * x 0 + 1 * x 1 = (K.2.1:ℝ) / k
        linarith [a.2.2.2, b.2.2.1, a.2.2.1, b.2.2.2]
  · rcases lt_or_gt_of_ne h0 with hl | hl
    · refine measure_mono_null (t := {x | 1 * x 0 + 0 * x 1 = (L.1:ℝ) / k}) ?_ (line_null _ _ _ (by norm_num))
      rintro x ⟨hx, hy⟩
      have a := gset_box hx; have b := gset_box hy; have c := slab_sep hl
      change 1 * x 0 + 0 * x 1 = (L.1:ℝ) / k
      linarith [a.2.1, b.1, a.1, b.2.1]
    · refine measure_mono_null (t := {x | 1 * x 0 + 0 * x 1 = (K.1:ℝ) / k}) ?_ (line_null _ _ _ (by norm_num))
      rintro x ⟨hx, hy⟩
      have a := gset_box hx; have b := gset_box hy; have c := slab_sep hl
      change 1 * x 0 + 0 * x 1 = (K.1:ℝ) / k
      linarith [a.2.1, b.1, a.1, b.2.1]

theorem slab_bd (hk : 0 < k) (i : Fin k) : 0 ≤ (i:ℝ) / k ∧ (i:ℝ) / k + 1 / k ≤ 1 := by
  have hkR : (0:ℝ) < k := by exact_mod_cast hk
  refine ⟨by positivity, ?_⟩
  rw [← add_div, div_le_one hkR]
  exact_mod_cast i.2

theorem squares_tiles : (squares k hk).Tiles where
  cover := by
    ext x
    simp only [Set.mem_iUnion, Set.mem_Icc, Pi.le_def, Fin.forall_fin_two, Pi.zero_apply, Pi.one_apply]
    constructor
    · rintro ⟨K, hK⟩
      obtain ⟨L, rfl⟩ := (Fintype.equivFin (GIdx k)).surjective K
      rw [squares_tri] at hK
      obtain ⟨a, b, c, d⟩ := gset_box hK
      have e := slab_bd hk L.1
      have f := slab_bd hk L.2.1
      exact ⟨⟨by linarith, by linarith⟩, by linarith, by linarith⟩
    · rintro ⟨⟨h0, h1⟩, h2, h3⟩
      obtain ⟨i, a, b⟩ := slab_of hk h0 h2
      obtain ⟨j, c, d⟩ := slab_of hk h1 h3
      rcases le_total (x 1 - (j:ℝ) / k) (x 0 - (i:ℝ) / k) with h | h
      · exact ⟨Fintype.equivFin (GIdx k) (i, j, false), by rw [squares_tri]; exact ⟨c, h, b⟩⟩
      · exact ⟨Fintype.equivFin (GIdx k) (i, j, true), by rw [squares_tri]; exact ⟨a, h, d⟩⟩
  disj K L h := by
    obtain ⟨K, rfl⟩ := (Fintype.equivFin (GIdx k)).surjective K
    obtain ⟨L, rfl⟩ := (Fintype.equivFin (GIdx k)).surjective L
    simp only [squares_tri]
    exact gset_disj fun e => h (by rw [e])

/-! ### Lengths, areas and the boundary -/

theorem squares_v (K : GIdx k) : (squares k hk).v (Fintype.equivFin (GIdx k) K) = gv K := congrArg gv (Equiv.symm_apply_apply _ K)

theorem len_of {a b c d h : ℝ} (hh : 0 ≤ h) (e : ((c - a) ^ 2 + (d - b) ^ 2 = h ^ 2) ∨ (c - a) ^ 2 + (d - b) ^ 2 = 2 * h ^ 2) :
    segLen ![a, b] ![c, d] = h ∨ segLen ![a, b] ![c, d] = √2 * h := by
  unfold segLen
  simp only [Matrix.cons_val_zero, Matrix.cons_val_one]
  rcases e with e | e
  · left; rw [e, Real.sqrt_sq hh]
  · right; rw [e, Real.sqrt_mul (by norm_num), Real.sqrt_sq hh]

theorem squares_len (e : (squares k hk).Edge) : len e = 1 / k ∨ len e = √2 * (1 / k) := by
  obtain ⟨K, c⟩ := e
  obtain ⟨⟨i, j, b⟩, rfl⟩ := (Fintype.equivFin (GIdx k)).surjective K
  have h : (0:ℝ) ≤ 1 / k := by positivity
  obtain ⟨e1, e2, e3⟩ := gpt_succ (k := k) i j
  unfold len src tgt
  rw [squares_v]
  cases b <;> fin_cases c
  · change segLen (gpt k i j) (gpt k (i + 1) j) = _ ∨ segLen (gpt k i j) (gpt k (i + 1) j) = _
    rw [e1]; exact len_of h (by left; ring)
  · change segLen (gpt k (i + 1) j) (gpt k (i + 1) (j + 1)) = _ ∨ segLen (gpt k (i + 1) j) (gpt k (i + 1) (j + 1)) = _
    rw [e1, e3]; exact len_of h (by left; ring)
  · change segLen (gpt k (i + 1) (j + 1)) (gpt k i j) = _ ∨ segLen (gpt k (i + 1) (j + 1)) (gpt k i j) = _
    rw [e3]; exact len_of h (by right; ring)
  · change segLen (gpt k i j) (gpt k (i + 1) (j + 1)) = _ ∨ segLen (gpt k i j) (gpt k (i + 1) (j + 1)) = _
    rw [e3]; exact len_of h (by right; ring)
  · change segLen (gpt k (i + 1) (j + 1)) (gpt k i (j + 1)) = _ ∨ segLen (gpt k (i + 1) (j + 1)) (gpt k i (j + 1)) = _
    rw [e2, e3]; exact len_of h (by left; ring)
  · change segLen (gpt k i (j + 1)) (gpt k i j) = _ ∨ segLen (gpt k i (j + 1)) (gpt k i j) = _
    rw [e2]; exact len_of h (by left; ring)

theorem squares_bounds : (squares k hk).Bounds (1 / k) (√2 * (1 / k)) (1 / (k:ℝ) ^ 2) (√2) := by
  have hkR : (0:ℝ) < k := by exact_mod_cast hk
  have s : (1:ℝ) ≤ √2 := Real.one_le_sqrt.2 (by norm_num)
  have h : (0:ℝ) < 1 / k := by positivity
  have l : 1 / (k:ℝ) ≤ √2 * (1 / k) := le_mul_of_one_le_left h.le s
  refine { hm0 := h, le := l, δ0 := by positivity, R0 := by positivity, lo := fun e => ?_, hi := fun e => ?_, area := fun K => ?_, disc := fun K i => ?_ }
  · rcases squares_len e with e | e <;> rw [e]
    exact l
  · rcases squares_len e with e | e <;> rw [e]
    exact l
  · obtain ⟨K, rfl⟩ := (Fintype.equivFin (GIdx k)).surjective K
    unfold det
    rw [squares_v, gv_pos hk]
  · have hx : (squares k hk).v K i ∈ (squares k hk).tri K := subset_convexHull ℝ _ (by fin_cases i <;> simp)
    have : (squares k hk).v K i ∈ Set.Icc (0 : Fin 2 → ℝ) 1 := by
      rw [← (squares_tiles (k := k) (hk := hk)).cover]; exact Set.mem_iUnion.2 ⟨K, hx⟩
    have a0 := this.1 0; have a1 := this.1 1; have b0 := this.2 0; have b1 := this.2 1
    simp only [Pi.zero_apply, Pi.one_apply] at a0 a1 b0 b1
    rw [Real.sq_sqrt (by norm_num)]
    nlinarith

theorem squares_bd : (squares k hk).BdSquare := by
  have hkR : (k:ℝ) ≠ 0 := by exact_mod_cast hk.ne'
  rintro x ⟨⟨K, c⟩, he, s, -, rfl⟩
  obtain ⟨⟨i, j, b⟩, rfl⟩ := (Fintype.equivFin (GIdx k)).surjective K
  have hn : gnb ((i, j, b), c) = none := by
    have : (gnb ((Fintype.equivFin (GIdx k)).symm (Fintype.equivFin (GIdx k) (i, j, b)), c)) = none := Option.map_eq_none_iff.1 he
    rwa [Equiv.symm_apply_apply] at this
  have last : ∀ i : Fin k, ¬ i.1 + 1 < k → ((i.1 + 1 : ℕ) : ℝ) / k = 1 := fun i h => by
    have : i.1 + 1 = k := by have := i.2; omega
    rw [this, div_self hkR]
  unfold src tgt
  rw [squares_v]
  cases b <;> fin_cases c
  · simp only [gnb] at hn
    split at hn
    · simp at hn
    · right; right; left
      have : j.1 = 0 := by omega
      change (j.1:ℝ) / k + s * ((j.1:ℝ) / k - (j.1:ℝ) / k) = 0
      rw [this]; simp
  · simp only [gnb] at hn
    split at hn
    · simp at hn
    · right; left
      change ((i.1 + 1 : ℕ):ℝ) / k + s * (((i.1 + 1 : ℕ):ℝ) / k - ((i.1 + 1 : ℕ):ℝ) / k) = 1
      rw [last i (by assumption)]; simp
  · simp [gnb] at hn
  · simp [gnb] at hn
  · simp only [gnb] at hn
    split at hn
    · simp at hn
    · right; right; right
      change ((j.1 + 1 : ℕ):ℝ) / k + s * (((j.1 + 1 : ℕ):ℝ) / k - ((j.1 + 1 : ℕ):ℝ) / k) = 1
      rw [last j (by assumption)]; simp
  · simp only [gnb] at hn
    split at hn
    · simp at hn
    · left
      have : i.1 = 0 := by omega
      change (i.1:ℝ) / k + s * ((i.1:ℝ) / k - (i.1:ℝ) / k) = 0
      rw [this]; simp

end Tri
end Dxss
