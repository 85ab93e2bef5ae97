import Verif.Lemmas.TriInverse
import Verif.Lemmas.Kernel

/-! # The elliptic estimate on triangulations, with constants -/

namespace Dxss
open Finset MeasureTheory

namespace Tri
variable {m : Tri}
open AnaD

theorem len_le_diam (e : m.Edge) : len e ≤ m.diam e.1 := by
  obtain ⟨K, i⟩ := e
  unfold diam
  fin_cases i
  · exact (le_max_left _ _).trans (le_max_left _ _)
  · exact (le_max_right _ _).trans (le_max_left _ _)
  · exact le_max_right _ _

theorem diam_pos (K : Fin m.n) : 0 < m.diam K := (len_pos (m := m) (K, 0)).trans_le (len_le_diam (m := m) (K, 0))

theorem cellL2_self (K : Fin m.n) (f : AnaD 2) : 0 ≤ m.cellL2 K f f := triL2_self (m.pos K) f
theorem edgeL2_self (e : m.Edge) (f : AnaD 2) : 0 ≤ m.edgeL2 e f f := segL2_self f

variable (m)
/-- A function with non-negative values on every triangle. -/
def Nonneg (i : m.Broken) : Prop :=
  ∀ K s t, 0 ≤ s → 0 ≤ t → s + t ≤ 1 → 0 ≤ (i K).1 (refPt (m.v K 0) (m.v K 1) (m.v K 2) s t)

theorem space_psd {i : m.Broken} (hi : m.Nonneg i) : m.space.Psd i where
  mass v := by
    rw [space_mass]; exact sum_nonneg fun K _ => cellL2_self K _
  stiff v := by
    rw [space_stiff]; exact sum_nonneg fun K _ => sum_nonneg fun b _ => cellL2_self K _
  pen v := by
    rw [space_pen]
    refine sum_nonneg fun e _ => ?_
    split
    · exact mul_nonneg (one_div_pos.2 (diam_pos _)).le (edgeL2_self e _)
    · exact le_rfl
  ghost v := by
    rw [space_ghost]
    refine mul_nonneg (by norm_num) (sum_nonneg fun e _ => ?_)
    rcases m.nb e with _ | e'
    · exact le_rfl
    · exact mul_nonneg (by linarith [diam_pos e.1, diam_pos e'.1]) (sum_nonneg fun b _ => edgeL2_self e _)
  h2 v := by
    rw [space_h2]; exact sum_nonneg fun K _ => mul_nonneg (sq_nonneg _) (cellL2_self K _)
  omega v := by
    rw [space_omega]
    refine sum_nonneg fun K _ => triInt_nonneg (m.pos K) fun s t hs ht hst => ?_
    change 0 ≤ _ * (v K).1 _ * (v K).1 _
    rw [mul_assoc]
    exact mul_nonneg (hi K s t hs ht hst) (mul_self_nonneg _)

theorem space_definite : m.space.Definite where
  mass v h := by
    rw [space_mass, sum_eq_zero_iff_of_nonneg fun K _ => cellL2_self K _] at h
    exact funext fun K => triL2_zero (m.pos K) (h K (mem_univ K))
  h2 v h := by
    rw [space_h2, sum_eq_zero_iff_of_nonneg fun K _ => mul_nonneg (sq_nonneg _) (cellL2_self K _)] at h
    refine funext fun K => triL2_zero (m.pos K) ?_
    exact (mul_eq_zero.1 (h K (mem_univ K))).resolve_left (pow_ne_zero 2 (diam_pos K).ne')

/-- Bounds for a triangulation: edges between `hm` and `hM`, areas at least `δ / 2`, all in a disc of radius `R`. -/
structure Bounds (hm hM δ R : ℝ) : Prop where
  hm0 : 0 < hm
  le : hm ≤ hM
  δ0 : 0 < δ
  R0 : 0 < R
  lo : ∀ e : m.Edge, hm ≤ len e
  hi : ∀ e : m.Edge, len e ≤ hM
  area : ∀ K, δ ≤ m.det K
  disc : ∀ K i, m.v K i 0 ^ 2 + m.v K i 1 ^ 2 ≤ R ^ 2

variable {m} {hm hM δ R : ℝ}

theorem Bounds.diam_le (h : m.Bounds hm hM δ R) (K : Fin m.n) : hm ≤ m.diam K ∧ m.diam K ≤ hM :=
  ⟨(h.lo (K, 0)).trans (len_le_diam (m := m) (K, 0)), max_le (max_le (h.hi _) (h.hi _)) (h.hi _)⟩

theorem jensen {a b c A B C : ℝ} (ha : 0 ≤ a) (hb : 0 ≤ b) (hc : 0 ≤ c) (h : a + b + c = 1) :
    (a * A + b * B + c * C) ^ 2 ≤ a * A ^ 2 + b * B ^ 2 + c * C ^ 2 := by
  obtain rfl : a = 1 - b - c := by linarith
  have h1 := mul_nonneg (mul_nonneg ha hb) (sq_nonneg (A - B))
  have h2 := mul_nonneg (mul_nonneg ha hc) (sq_nonneg (A - C))
  have h3 := mul_nonneg (mul_nonneg hb hc) (sq_nonneg (B - C))
  nlinarith

theorem Bounds.point (h : m.Bounds hm hM δ R) (K : Fin m.n) (i : Fin 3) {s t : ℝ} (hs : 0 ≤ s) (ht : 0 ≤ t) (hst : s + t ≤ 1) :
    refPt (m.v K i) (m.v K (i + 1)) (m.v K (i + 2)) s t 0 ^ 2 + refPt (m.v K i) (m.v K (i + 1)) (m.v K (i + 2)) s t 1 ^ 2 ≤ R ^ 2 := by
  have e : ∀ c, refPt (m.v K i) (m.v K (i + 1)) (m.v K (i + 2)) s t c = (1 - s - t) * m.v K i c + s * m.v K (i + 1) c + t * m.v K (i + 2) c :=
    fun c => by unfold refPt; ring
  rw [e, e]
  have a : 0 ≤ 1 - s - t := by linarith
  have h0 := jensen (A := m.v K i 0) (B := m.v K (i + 1) 0) (C := m.v K (i + 2) 0) a hs ht (by ring)
  have h1 := jensen (A := m.v K i 1) (B := m.v K (i + 1) 1) (C := m.v K (i + 2) 1) a hs ht (by ring)
  have d0 := mul_le_mul_of_nonneg_left (h.disc K i) a
  have d1 := mul_le_mul_of_nonneg_left (h.disc K (i + 1)) hs
  have d2 := mul_le_mul_of_nonneg_left (h.disc K (i + 2)) ht
  linarith

theorem Bounds.edge_point (h : m.Bounds hm hM δ R) (e : m.Edge) {s : ℝ} (h0 : 0 ≤ s) (h1 : s ≤ 1) :
    segPt (src e) (tgt e) s 0 ^ 2 + segPt (src e) (tgt e) s 1 ^ 2 ≤ R ^ 2 := by
  have := h.point e.1 e.2 h0 le_rfl (by linarith)
  simpa [refPt, segPt, src, tgt] using this

theorem dot_sq (a b c d : ℝ) : (a * c + b * d) ^ 2 ≤ (a ^ 2 + b ^ 2) * (c ^ 2 + d ^ 2) := by nlinarith [sq_nonneg (a * d - b * c)]

variable (m) in
/-- `∫ u²` over the boundary. -/
noncomputable def bdSq (u : m.Broken) : ℝ := ∑ e, if m.nb e = none then m.edgeL2 e (u e.1) (u e.1) else 0

theorem bdSq_le (h : m.Bounds hm hM δ R) (u : m.Broken) : m.bdSq u ≤ hM * m.space.pen u u := by
  rw [space_pen, mul_sum]
  refine sum_le_sum fun e _ => ?_
  split
  · have hd := diam_pos e.1
    have h1 : 1 ≤ hM * (1 / m.diam e.1) := by
      rw [mul_one_div, le_div_iff₀ hd, one_mul]; exact (h.diam_le e.1).2
    rw [← mul_assoc]
    exact le_mul_of_one_le_left (edgeL2_self e _) h1
  · rw [mul_zero]

/-- Poincaré's inequality. -/
theorem poincare (h : m.Bounds hm hM δ R) {u : m.Broken} (hu : m.Conforming u) :
    m.space.mass u u ≤ R * m.bdSq u + R ^ 2 * m.space.stiff u u := by
  have hp := m.poincare_eq hu
  have h1 : -(2 * ∑ K, ∑ b, m.cellL2 K (mul (coord b) (pd b (u K))) (u K)) ≤ m.space.mass u u + R ^ 2 * m.space.stiff u u := by
    rw [space_mass, space_stiff, mul_sum, mul_sum, ← sum_neg_distrib, ← sum_add_distrib]
    refine sum_le_sum fun K _ => ?_
    have : cellInt K (-(2:ℝ) • ∑ b, mul (mul (coord b) (pd b (u K))) (u K))
        ≤ cellInt K (mul (u K) (u K) + R ^ 2 • ∑ b, mul (pd b (u K)) (pd b (u K))) := by
      refine triInt_mono (m.pos K) fun s t hs ht hst => ?_
      set x := refPt (m.v K 0) (m.v K 1) (m.v K 2) s t with hx
      rw [Fin.sum_univ_two, Fin.sum_univ_two]
      change -2 * (x 0 * (pd 0 (u K)).1 x * (u K).1 x + x 1 * (pd 1 (u K)).1 x * (u K).1 x)
        ≤ (u K).1 x * (u K).1 x + R ^ 2 * ((pd 0 (u K)).1 x * (pd 0 (u K)).1 x + (pd 1 (u K)).1 x * (pd 1 (u K)).1 x)
      have hR : x 0 ^ 2 + x 1 ^ 2 ≤ R ^ 2 := h.point K 0 hs ht hst
      have hd := dot_sq (x 0) (x 1) ((pd 0 (u K)).1 x) ((pd 1 (u K)).1 x)
      have hm := mul_le_mul_of_nonneg_right hR (by positivity : 0 ≤ (pd 0 (u K)).1 x ^ 2 + (pd 1 (u K)).1 x ^ 2)
      nlinarith [sq_nonneg ((u K).1 x + (x 0 * (pd 0 (u K)).1 x + x 1 * (pd 1 (u K)).1 x))]
    rw [map_smul, map_add, map_smul, map_sum, map_sum, smul_eq_mul, smul_eq_mul] at this
    simp only [cellL2_eq]
    linarith
  have h2 : (∑ e, if m.nb e = none then ∑ b, nrm e b * edgeInt e (mul (coord b) (mul (u e.1) (u e.1))) else 0) ≤ R * m.bdSq u := by
    rw [bdSq, mul_sum]
    refine sum_le_sum fun e _ => ?_
    split
    · have : edgeInt e (∑ b, nrm e b • mul (coord b) (mul (u e.1) (u e.1))) ≤ edgeInt e (R • mul (u e.1) (u e.1)) := by
        refine segInt_mono fun s h0 h1 => ?_
        set x := segPt (src e) (tgt e) s with hx
        rw [Fin.sum_univ_two]
        change nrm e 0 * (x 0 * ((u e.1).1 x * (u e.1).1 x)) + nrm e 1 * (x 1 * ((u e.1).1 x * (u e.1).1 x)) ≤ R * ((u e.1).1 x * (u e.1).1 x)
        have hR : x 0 ^ 2 + x 1 ^ 2 ≤ R ^ 2 := h.edge_point e h0 h1
        have hd := dot_sq (nrm e 0) (nrm e 1) (x 0) (x 1)
        rw [nrm_sq, one_mul] at hd
        have : nrm e 0 * x 0 + nrm e 1 * x 1 ≤ R := le_of_sq_le_sq (hd.trans hR) h.R0.le
        have := mul_le_mul_of_nonneg_right this (mul_self_nonneg ((u e.1).1 x))
        linarith
      rw [map_sum, map_smul, smul_eq_mul] at this
      simp only [map_smul, smul_eq_mul] at this
      exact this
    · rw [mul_zero]
  linarith

theorem sum_edge_inverse (h : m.Bounds hm hM δ R) {u : m.Broken} (hd : ∀ K, Deg 3 (u K)) :
    ∑ e : m.Edge, m.edgeL2 e (u e.1) (u e.1) ≤ 60 * (hM / δ) * m.space.mass u u := by
  rw [← edge_sum fun e => m.edgeL2 e (u e.1) (u e.1), space_mass, mul_sum]
  refine sum_le_sum fun K _ => ?_
  have : ∀ i : Fin 3, m.edgeL2 (K, i) (u K) (u K) ≤ 20 * (hM / δ) * m.cellL2 K (u K) (u K) := by
    intro i
    refine (edge_inverse (m := m) (K, i) (hd K)).trans ?_
    have hc := cellL2_self K (u K)
    have : 20 * len (m := m) (K, i) / m.det K ≤ 20 * (hM / δ) := by
      rw [mul_div_assoc]
      have := div_le_div₀ ((len_pos (m := m) (K, i)).le.trans (h.hi (K, i))) (h.hi (K, i)) h.δ0 (h.area K)
      linarith
    exact mul_le_mul_of_nonneg_right this hc
  rw [Fin.sum_univ_three]
  linarith [this 0, this 1, this 2]

/-- The normal derivative on the boundary. -/
theorem flux_le (h : m.Bounds hm hM δ R) {u : m.Broken} (hd : ∀ K b, Deg 3 (pd b (u K))) :
    (∑ e : m.Edge, if m.nb e = none then m.edgeL2 e (dir (nrm e) (u e.1)) (dir (nrm e) (u e.1)) else 0)
      ≤ 60 * (hM / δ) * m.space.stiff u u := by
  have h1 : ∀ e : m.Edge, (if m.nb e = none then m.edgeL2 e (dir (nrm e) (u e.1)) (dir (nrm e) (u e.1)) else 0)
      ≤ ∑ b, m.edgeL2 e (pd b (u e.1)) (pd b (u e.1)) := by
    intro e
    split
    · have : edgeInt e (mul (dir (nrm e) (u e.1)) (dir (nrm e) (u e.1))) ≤ edgeInt e (∑ b, mul (pd b (u e.1)) (pd b (u e.1))) := by
        refine segInt_mono fun s _ _ => ?_
        set x := segPt (src e) (tgt e) s with hx
        rw [Fin.sum_univ_two]
        change (nrm e 0 * (pd 0 (u e.1)).1 x + nrm e 1 * (pd 1 (u e.1)).1 x) * (nrm e 0 * (pd 0 (u e.1)).1 x + nrm e 1 * (pd 1 (u e.1)).1 x)
          ≤ (pd 0 (u e.1)).1 x * (pd 0 (u e.1)).1 x + (pd 1 (u e.1)).1 x * (pd 1 (u e.1)).1 x
        have hd := dot_sq (nrm e 0) (nrm e 1) ((pd 0 (u e.1)).1 x) ((pd 1 (u e.1)).1 x)
        rw [nrm_sq, one_mul] at hd
        linarith
      rw [map_sum] at this
      exact this
    · exact sum_nonneg fun b _ => edgeL2_self e _
  have h2 : m.space.stiff u u = ∑ b, ∑ K, m.cellL2 K (pd b (u K)) (pd b (u K)) := by rw [space_stiff, sum_comm]
  refine (sum_le_sum fun e _ => h1 e).trans ?_
  rw [sum_comm, h2, mul_sum]
  refine sum_le_sum fun b _ => ?_
  have := sum_edge_inverse h (u := fun K => pd b (u K)) fun K => hd K b
  rwa [space_mass] at this

variable (m) in
/-- Squares of the jumps of the gradient. -/
noncomputable def jumpSq (u : m.Broken) : ℝ :=
  1 / 2 * ∑ e : m.Edge, (m.nb e).elim 0 fun e' => ∑ b, m.edgeL2 e (m.jump e e' b u) (m.jump e e' b u)

theorem jumpSq_le (h : m.Bounds hm hM δ R) (u : m.Broken) : hm * m.jumpSq u ≤ m.space.ghost u u := by
  rw [space_ghost, jumpSq, mul_left_comm]
  refine mul_le_mul_of_nonneg_left ?_ (by norm_num)
  rw [mul_sum]
  refine sum_le_sum fun e _ => ?_
  rcases m.nb e with _ | e'
  · simp
  · simp only [Option.elim_some]
    refine mul_le_mul_of_nonneg_right ?_ (sum_nonneg fun b _ => edgeL2_self e _)
    linarith [(h.diam_le e.1).1, (h.diam_le e'.1).1]

/-- The terms at the interior facets. -/
theorem inner_le {u : m.Broken} {a : ℝ} (ha : 0 < a) :
    1 / 2 * ∑ e : m.Edge, ((m.nb e).elim 0 fun e' => ∑ b, nrm e b * m.edgeL2 e (m.jump e e' b u) (u e.1))
      ≤ a / 4 * ∑ e : m.Edge, m.edgeL2 e (u e.1) (u e.1) + 1 / (2 * a) * m.jumpSq u := by
  rw [jumpSq, mul_left_comm (1 / (2 * a)), show a / 4 = 1 / 2 * (a / 2) by ring, mul_assoc, ← mul_add]
  refine mul_le_mul_of_nonneg_left ?_ (by norm_num)
  rw [mul_sum, mul_sum, ← sum_add_distrib]
  refine sum_le_sum fun e _ => ?_
  have h0 := edgeL2_self e (u e.1)
  rcases m.nb e with _ | e'
  · simp only [Option.elim_none, mul_zero, add_zero]; positivity
  · simp only [Option.elim_some]
    have : edgeInt e (∑ b, nrm e b • mul (m.jump e e' b u) (u e.1))
        ≤ edgeInt e ((a / 2) • mul (u e.1) (u e.1) + (1 / (2 * a)) • ∑ b, mul (m.jump e e' b u) (m.jump e e' b u)) := by
      refine segInt_mono fun s _ _ => ?_
      set x := segPt (src e) (tgt e) s with hx
      rw [Fin.sum_univ_two, Fin.sum_univ_two]
      change nrm e 0 * ((m.jump e e' 0 u).1 x * (u e.1).1 x) + nrm e 1 * ((m.jump e e' 1 u).1 x * (u e.1).1 x)
        ≤ a / 2 * ((u e.1).1 x * (u e.1).1 x) + 1 / (2 * a) * ((m.jump e e' 0 u).1 x * (m.jump e e' 0 u).1 x + (m.jump e e' 1 u).1 x * (m.jump e e' 1 u).1 x)
      have hd := dot_sq (nrm e 0) (nrm e 1) ((m.jump e e' 0 u).1 x) ((m.jump e e' 1 u).1 x)
      rw [nrm_sq, one_mul] at hd
      generalize (m.jump e e' 0 u).1 x = p at *
      generalize (m.jump e e' 1 u).1 x = q at *
      generalize (u e.1).1 x = w at *
      have h1 := sq_nonneg (a * w - (nrm e 0 * p + nrm e 1 * q))
      have h2 : 0 ≤ 1 / (2 * a) * ((a * w - (nrm e 0 * p + nrm e 1 * q)) ^ 2 + (p ^ 2 + q ^ 2 - (nrm e 0 * p + nrm e 1 * q) ^ 2)) :=
        mul_nonneg (by positivity) (by linarith)
      have h3 : 1 / (2 * a) * ((a * w - (nrm e 0 * p + nrm e 1 * q)) ^ 2 + (p ^ 2 + q ^ 2 - (nrm e 0 * p + nrm e 1 * q) ^ 2))
          = a / 2 * (w * w) + 1 / (2 * a) * (p * p + q * q) - (nrm e 0 * (p * w) + nrm e 1 * (q * w)) := by
        field_simp; ring
      linarith
    rw [map_sum, map_add, map_smul, map_smul, map_sum, smul_eq_mul, smul_eq_mul] at this
    simp only [map_smul, smul_eq_mul] at this
    exact this

/-- The terms on the boundary. -/
theorem nit_le {u : m.Broken} {a : ℝ} (ha : 0 < a) : m.space.nit u u
    ≤ a / 2 * (∑ e : m.Edge, if m.nb e = none then m.edgeL2 e (dir (nrm e) (u e.1)) (dir (nrm e) (u e.1)) else 0)
      + 1 / (2 * a) * m.bdSq u := by
  rw [space_nit, bdSq, mul_sum, mul_sum, ← sum_add_distrib]
  refine sum_le_sum fun e _ => ?_
  split
  · have : edgeInt e (mul (dir (nrm e) (u e.1)) (u e.1)) ≤ edgeInt e ((a / 2) • mul (dir (nrm e) (u e.1)) (dir (nrm e) (u e.1))
        + (1 / (2 * a)) • mul (u e.1) (u e.1)) := by
      refine segInt_mono fun s _ _ => ?_
      set x := segPt (src e) (tgt e) s with hx
      change (dir (nrm e) (u e.1)).1 x * (u e.1).1 x ≤ a / 2 * ((dir (nrm e) (u e.1)).1 x * (dir (nrm e) (u e.1)).1 x)
        + 1 / (2 * a) * ((u e.1).1 x * (u e.1).1 x)
      generalize (dir (nrm e) (u e.1)).1 x = p
      generalize (u e.1).1 x = w
      have h2 : 0 ≤ 1 / (2 * a) * (a * p - w) ^ 2 := by positivity
      have h3 : 1 / (2 * a) * (a * p - w) ^ 2 = a / 2 * (p * p) + 1 / (2 * a) * (w * w) - p * w := by field_simp; ring
      linarith
    rw [map_add, map_smul, map_smul, smul_eq_mul, smul_eq_mul] at this
    exact this
  · simp

theorem lap_le {u w : m.Broken} {a : ℝ} (ha : 0 < a) : -m.space.mass w u ≤ a / 2 * m.space.mass u u + 1 / (2 * a) * m.space.mass w w := by
  have hz : m.Nonneg 0 := fun K s t _ _ _ => le_rfl
  have h := (m.space_psd hz).mass (a • u + w)
  simp only [map_add, map_smul, LinearMap.add_apply, LinearMap.smul_apply, smul_eq_mul] at h
  rw [m.space.mass_symm u w] at h
  have h1 : 0 ≤ 1 / (2 * a) * (a * (a * m.space.mass u u) + m.space.mass w w + 2 * a * m.space.mass w u) :=
    mul_nonneg (by positivity) (by linarith)
  have h2 : 1 / (2 * a) * (a * (a * m.space.mass u u) + m.space.mass w w + 2 * a * m.space.mass w u)
      = a / 2 * m.space.mass u u + 1 / (2 * a) * m.space.mass w w + m.space.mass w u := by field_simp
  linarith

theorem h2_le (h : m.Bounds hm hM δ R) (w : m.Broken) : hm ^ 2 * m.space.mass w w ≤ m.space.h2 w w ∧ m.space.h2 w w ≤ hM ^ 2 * m.space.mass w w := by
  rw [space_h2, space_mass, mul_sum, mul_sum]
  constructor <;> refine sum_le_sum fun K _ => mul_le_mul_of_nonneg_right ?_ (cellL2_self K _)
  · exact pow_le_pow_left₀ h.hm0.le (h.diam_le K).1 2
  · exact pow_le_pow_left₀ (diam_pos K).le (h.diam_le K).2 2

/-- Boundary values, jumps of the gradient and the Laplacian control a continuous piecewise cubic function. -/
theorem elliptic_control (h : m.Bounds hm hM δ R) {k : ℕ} (hk : k ≤ 3) {u : m.Broken} (hu : u ∈ m.lagrange k) :
    m.space.mass u u ≤ (2 * R * hM + 120 * R ^ 2 * hM ^ 2 / δ) * m.space.pen u u + 4 * R ^ 4 / hm ^ 2 * m.space.h2 (m.space.lap u) (m.space.lap u)
      + 120 * hM * R ^ 4 / (δ * hm) * m.space.ghost u u := by
  obtain ⟨hp, hc⟩ := m.mem_lagrange.1 hu
  have hz : m.Nonneg 0 := fun K s t _ _ _ => le_rfl
  have hPsd := m.space_psd hz
  have hdeg : ∀ {f : AnaD 2}, Deg k f → Deg 3 f := fun hf P w => by
    obtain ⟨p, h1, h2⟩ := hf P w
    exact ⟨p, h1.trans hk, h2⟩
  have hM0 : 0 < hM := h.hm0.trans_le h.le
  set c := hM / δ with hcdef
  have hc0 : 0 < c := div_pos hM0 h.δ0
  have hR := h.R0
  have g := m.green u hc
  have t1 := lap_le (u := u) (w := m.space.lap u) (a := 1 / (4 * R ^ 2)) (by positivity)
  have t2 := inner_le (u := u) (a := 1 / (120 * c * R ^ 2)) (by positivity)
  have t3 := nit_le (u := u) (a := 1 / (120 * c)) (by positivity)
  have p := poincare h hc
  have i1 := sum_edge_inverse h (u := u) fun K => hdeg (Total.deg (hp K))
  have i2 := flux_le h (u := u) fun K b => hdeg (Total.pd_deg (hp K) b)
  have hB := bdSq_le h u
  have hJ := jumpSq_le h u
  have hL := (h2_le h (m.space.lap u)).1
  rw [← hcdef] at i1 i2
  have hB0 : 0 ≤ m.bdSq u := sum_nonneg fun e _ => by
    split
    · exact edgeL2_self e _
    · exact le_rfl
  generalize m.space.mass u u = M at *
  generalize m.space.stiff u u = S at *
  generalize m.space.mass (m.space.lap u) (m.space.lap u) = Λ at *
  generalize m.space.mass (m.space.lap u) u = Q at *
  generalize m.space.h2 (m.space.lap u) (m.space.lap u) = H at *
  generalize m.space.ghost u u = G at *
  generalize m.space.pen u u = P at *
  generalize m.bdSq u = B at *
  generalize m.jumpSq u = J at *
  generalize m.space.nit u u = N at *
  generalize (1 / 2 * ∑ e : m.Edge, ((m.nb e).elim 0 fun e' => ∑ b, nrm e b * m.edgeL2 e (m.jump e e' b u) (u e.1))) = I at *
  generalize (∑ e : m.Edge, m.edgeL2 e (u e.1) (u e.1)) = E at *
  generalize (∑ e : m.Edge, if m.nb e = none then m.edgeL2 e (dir (nrm e) (u e.1)) (dir (nrm e) (u e.1)) else 0) = F at *
  have a1 : -Q ≤ M / (8 * R ^ 2) + 2 * R ^ 2 * Λ := t1.trans_eq (by field_simp; ring)
  have a2 : I ≤ M / (8 * R ^ 2) + 60 * c * R ^ 2 * J := by
    refine t2.trans ?_
    have := mul_le_mul_of_nonneg_left i1 (by positivity : 0 ≤ 1 / (120 * c * R ^ 2) / 4)
    have e1 : 1 / (120 * c * R ^ 2) / 4 * (60 * c * M) = M / (8 * R ^ 2) := by field_simp; ring
    have e2 : 1 / (2 * (1 / (120 * c * R ^ 2))) * J = 60 * c * R ^ 2 * J := by field_simp; ring
    linarith
  have a3 : N ≤ S / 4 + 60 * c * B := by
    refine t3.trans ?_
    have := mul_le_mul_of_nonneg_left i2 (by positivity : 0 ≤ 1 / (120 * c) / 2)
    have e1 : 1 / (120 * c) / 2 * (60 * c * S) = S / 4 := by field_simp; ring
    have e2 : 1 / (2 * (1 / (120 * c))) * B = 60 * c * B := by field_simp; ring
    linarith
  have a4 : M / (4 * R ^ 2) ≤ B / (4 * R) + S / 4 := by
    have := mul_le_mul_of_nonneg_left p (by positivity : 0 ≤ 1 / (4 * R ^ 2))
    have e1 : 1 / (4 * R ^ 2) * M = M / (4 * R ^ 2) := by ring
    have e2 : 1 / (4 * R ^ 2) * (R * B + R ^ 2 * S) = B / (4 * R) + S / 4 := by field_simp
    linarith
  have a5 : S ≤ B / (2 * R) + 120 * c * B + 4 * R ^ 2 * Λ + 120 * c * R ^ 2 * J := by
    have e1 : M / (8 * R ^ 2) = M / (4 * R ^ 2) / 2 := by field_simp; ring
    have e2 : B / (2 * R) = B / (4 * R) * 2 := by field_simp; ring
    linarith
  have a6 : M ≤ (2 * R + 120 * c * R ^ 2) * B + 4 * R ^ 4 * Λ + 120 * c * R ^ 4 * J := by
    have := mul_le_mul_of_nonneg_left a5 (by positivity : 0 ≤ R ^ 2)
    have e1 : R ^ 2 * (B / (2 * R) + 120 * c * B + 4 * R ^ 2 * Λ + 120 * c * R ^ 2 * J)
        = R / 2 * B + 120 * c * R ^ 2 * B + 4 * R ^ 4 * Λ + 120 * c * R ^ 4 * J := by field_simp
    have : 0 ≤ R * B := by positivity
    linarith
  refine a6.trans ?_
  have b1 : (2 * R + 120 * c * R ^ 2) * B ≤ (2 * R * hM + 120 * R ^ 2 * hM ^ 2 / δ) * P := by
    refine (mul_le_mul_of_nonneg_left hB (by positivity)).trans_eq ?_
    rw [hcdef]; ring
  have b2 : 4 * R ^ 4 * Λ ≤ 4 * R ^ 4 / hm ^ 2 * H := by
    have h0 := h.hm0
    rw [div_mul_eq_mul_div, le_div_iff₀ (by positivity)]
    nlinarith [mul_le_mul_of_nonneg_left hL (by positivity : 0 ≤ 4 * R ^ 4)]
  have b3 : 120 * c * R ^ 4 * J ≤ 120 * hM * R ^ 4 / (δ * hm) * G := by
    have h0 := h.hm0
    have h1 := h.δ0
    have := mul_le_mul_of_nonneg_left hJ (by positivity : 0 ≤ 120 * hM * R ^ 4 / (δ * hm))
    refine le_trans (le_of_eq ?_) this
    rw [hcdef]; field_simp
  linarith

end Tri
end Dxss
