import Verif.Lemmas.TriInterp
import Verif.Lemmas.StandingWave
import Verif.Props.Wave2

/-! # Fluxes, jumps and interpolants on a triangulation of the unit square -/

namespace Dxss
open Finset MeasureTheory AnaD
namespace Tri
variable {m : Tri} {hm hM δ R : ℝ}

/-- The constant one. -/
noncomputable def uno : AnaD 2 := ⟨fun _ => 1, AnaD.mem analyticOnNhd_const⟩

theorem one_cell (K : Fin m.n) : m.space.one K = uno := rfl

theorem cell_sq_le (K : Fin m.n) {f : AnaD 2} {c : ℝ}
    (h : ∀ s t, 0 ≤ s → 0 ≤ t → s + t ≤ 1 → |f.1 (refPt (m.v K 0) (m.v K 1) (m.v K 2) s t)| ≤ c) :
    m.cellL2 K f f ≤ c ^ 2 * m.cellL2 K uno uno := by
  have : cellInt K (mul f f) ≤ cellInt K (c ^ 2 • mul uno uno) := by
    refine triInt_mono (m.pos K) fun s t hs ht hst => ?_
    change f.1 _ * f.1 _ ≤ c ^ 2 * (1 * 1)
    rw [← sq, ← sq_abs, mul_one, mul_one]
    exact pow_le_pow_left₀ (abs_nonneg _) (h s t hs ht hst) 2
  rw [map_smul, smul_eq_mul] at this
  exact this

theorem edge_sq_le (e : m.Edge) {f : AnaD 2} {c : ℝ} (h : ∀ s, 0 ≤ s → s ≤ 1 → |f.1 (segPt (src e) (tgt e) s)| ≤ c) :
    m.edgeL2 e f f ≤ c ^ 2 * len e := by
  have : edgeInt e (mul f f) ≤ edgeInt e (c ^ 2 • uno) := by
    refine segInt_mono fun s hs ht => ?_
    change f.1 _ * f.1 _ ≤ c ^ 2 * 1
    rw [← sq, ← sq_abs, mul_one]
    exact pow_le_pow_left₀ (abs_nonneg _) (h s hs ht) 2
  refine this.trans (le_of_eq ?_)
  rw [map_smul, smul_eq_mul]
  congr 1
  change len e * ∫ s in (0:ℝ)..1, (1:ℝ) = _
  simp

theorem cell_one (K : Fin m.n) : m.cellL2 K uno uno = m.det K / 2 := by
  change m.det K * refInt (fun _ _ => (1:ℝ) * 1) = _
  unfold refInt
  simp only [mul_one, intervalIntegral.integral_const, smul_eq_mul, sub_zero]
  rw [intervalIntegral.integral_sub (by simp) (by simp)]
  simp
  ring

theorem Tiles.area (ht : m.Tiles) : ∑ K, m.det K = 2 := by
  have := ht.one
  rw [space_mass] at this
  simp only [one_cell, cell_one] at this
  rw [← sum_div] at this
  linarith

theorem sum_len (h : m.Bounds hm hM δ R) (ht : m.Tiles) : hM * ∑ e : m.Edge, len e ≤ 6 * (hM ^ 2 / δ) := by
  have hM0 : 0 < hM := h.hm0.trans_le h.le
  have h1 : ∑ e : m.Edge, len e ≤ ∑ K, 3 * (hM / δ) * m.det K := by
    rw [← edge_sum fun e : m.Edge => len e]
    refine sum_le_sum fun K _ => ?_
    have : hM ≤ hM / δ * m.det K := by
      rw [div_mul_eq_mul_div, le_div_iff₀ h.δ0]
      exact mul_le_mul_of_nonneg_left (h.area K) hM0.le
    rw [Fin.sum_univ_three]
    linarith [h.hi (K, 0), h.hi (K, 1), h.hi (K, 2)]
  rw [← mul_sum, ht.area] at h1
  have := mul_le_mul_of_nonneg_left h1 hM0.le
  refine this.trans (le_of_eq ?_)
  ring

/-- The gradient is at most `G` in every component on every triangle. -/
def GradLe (v : m.Broken) (G : ℝ) : Prop := ∀ K b s t, 0 ≤ s → 0 ≤ t → s + t ≤ 1 →
  |(pd b (v K)).1 (refPt (m.v K 0) (m.v K 1) (m.v K 2) s t)| ≤ G

theorem edge_ref (e : m.Edge) {s : ℝ} (h0 : 0 ≤ s) (h1 : s ≤ 1) : ∃ s' t', 0 ≤ s' ∧ 0 ≤ t' ∧ s' + t' ≤ 1 ∧
    segPt (src e) (tgt e) s = refPt (m.v e.1 0) (m.v e.1 1) (m.v e.1 2) s' t' := by
  obtain ⟨K, i⟩ := e
  fin_cases i
  · exact ⟨s, 0, h0, le_rfl, by linarith, funext fun c => by change m.v K 0 c + s * (m.v K 1 c - m.v K 0 c) = _; unfold refPt; ring⟩
  · exact ⟨1 - s, s, by linarith, h0, by linarith, funext fun c => by change m.v K 1 c + s * (m.v K 2 c - m.v K 1 c) = _; unfold refPt; ring⟩
  · exact ⟨0, 1 - s, le_rfl, by linarith, by linarith, funext fun c => by change m.v K 2 c + s * (m.v K 0 c - m.v K 2 c) = _; unfold refPt; ring⟩

theorem GradLe.edge {v : m.Broken} {G : ℝ} (h : GradLe v G) (e : m.Edge) (b : Fin 2) {s : ℝ} (h0 : 0 ≤ s) (h1 : s ≤ 1) :
    |(pd b (v e.1)).1 (segPt (src e) (tgt e) s)| ≤ G := by
  obtain ⟨s', t', a, b', c, e'⟩ := edge_ref e h0 h1
  rw [e']; exact h _ _ _ _ a b' c

theorem stiff_le {v : m.Broken} {G : ℝ} (ht : m.Tiles) (h : GradLe v G) : m.space.stiff v v ≤ 2 * G ^ 2 := by
  rw [space_stiff]
  have h1 : ∀ K, ∑ b, m.cellL2 K (pd b (v K)) (pd b (v K)) ≤ 2 * G ^ 2 * (m.det K / 2) := by
    intro K
    rw [← cell_one, Fin.sum_univ_two]
    have a := cell_sq_le K fun s t => h K 0 s t
    have b := cell_sq_le K fun s t => h K 1 s t
    linarith
  refine (sum_le_sum fun K _ => h1 K).trans (le_of_eq ?_)
  rw [← mul_sum, ← sum_div, ht.area]
  ring

/-- The normal derivatives on the boundary, weighted with the size of the cell. -/
noncomputable def flux (m : Tri) : m.Broken →ₗ[ℝ] m.Broken →ₗ[ℝ] ℝ := ∑ e : m.Edge, if m.nb e = none then
  m.diam e.1 • (m.edgeL2 e).compl₁₂ ((dir (nrm e)).comp (m.cell e.1)) ((dir (nrm e)).comp (m.cell e.1)) else 0

theorem flux_apply (u w : m.Broken) : m.flux u w
    = ∑ e : m.Edge, if m.nb e = none then m.diam e.1 * m.edgeL2 e (dir (nrm e) (u e.1)) (dir (nrm e) (w e.1)) else 0 := by
  simp only [flux, LinearMap.sum_apply]
  refine sum_congr rfl fun e _ => ?_
  split <;> rfl

theorem flux_nonneg (v : m.Broken) : 0 ≤ m.flux v v := by
  rw [flux_apply]
  refine sum_nonneg fun e _ => ?_
  split
  · exact mul_nonneg (diam_pos _).le (edgeL2_self e _)
  · exact le_rfl

theorem facet_sq (e : m.Edge) (f g : AnaD 2) (r : ℝ) :
    0 ≤ r ^ 2 * (m.diam e.1 * m.edgeL2 e f f) + 2 * r * m.edgeL2 e f g + 1 / m.diam e.1 * m.edgeL2 e g g := by
  have hd := diam_pos (m := m) e.1
  have h := edgeL2_self e ((m.diam e.1 * r) • f + g)
  have hs : m.edgeL2 e g f = m.edgeL2 e f g := segL2_symm _ _ g f
  simp only [map_add, map_smul, LinearMap.add_apply, LinearMap.smul_apply, smul_eq_mul, hs] at h
  have := div_nonneg h hd.le
  refine this.trans (le_of_eq ?_)
  field_simp
  ring

theorem flux_bound (v y : m.Broken) : m.space.nit v y ^ 2 ≤ m.flux v v * m.space.pen y y := by
  have key : ∀ r : ℝ, 0 ≤ m.flux v v * (r * r) + 2 * m.space.nit v y * r + m.space.pen y y := by
    intro r
    rw [flux_apply, space_nit, space_pen, sum_mul, mul_sum, sum_mul, ← sum_add_distrib, ← sum_add_distrib]
    refine sum_nonneg fun e _ => ?_
    split
    · refine (facet_sq e (dir (nrm e) (v e.1)) (y e.1) r).trans (le_of_eq ?_)
      ring
    · simp
  have := discrim_le_zero key
  unfold discrim at this
  linarith [this]

theorem dir_le {v : m.Broken} {G : ℝ} (h : GradLe v G) (e : m.Edge) {s : ℝ} (h0 : 0 ≤ s) (h1 : s ≤ 1) :
    |(dir (nrm e) (v e.1)).1 (segPt (src e) (tgt e) s)| ≤ √2 * G := by
  have a := h.edge e 0 h0 h1
  have b := h.edge e 1 h0 h1
  have hG : 0 ≤ G := (abs_nonneg _).trans a
  change |nrm e 0 * (pd 0 (v e.1)).1 (segPt (src e) (tgt e) s) + nrm e 1 * (pd 1 (v e.1)).1 (segPt (src e) (tgt e) s)| ≤ _
  refine abs_le_of_sq_le_sq ?_ (by positivity)
  refine (dot_sq _ _ _ _).trans ?_
  rw [nrm_sq, one_mul, mul_pow, Real.sq_sqrt (by norm_num)]
  have a2 := pow_le_pow_left₀ (abs_nonneg _) a 2
  have b2 := pow_le_pow_left₀ (abs_nonneg _) b 2
  rw [sq_abs] at a2 b2
  linarith

theorem flux_le' (hb : m.Bounds hm hM δ R) (ht : m.Tiles) {v : m.Broken} {G : ℝ} (h : GradLe v G) :
    m.flux v v ≤ 12 * (hM ^ 2 / δ) * G ^ 2 := by
  rw [flux_apply]
  have h1 : ∀ e : m.Edge, (if m.nb e = none then m.diam e.1 * m.edgeL2 e (dir (nrm e) (v e.1)) (dir (nrm e) (v e.1)) else 0)
      ≤ 2 * G ^ 2 * (hM * len e) := by
    intro e
    have hM0 : 0 < hM := hb.hm0.trans_le hb.le
    have hl := len_pos e
    split
    · have h2 := edge_sq_le e fun s h0 h1 => dir_le h e h0 h1
      rw [mul_pow, Real.sq_sqrt (by norm_num)] at h2
      have := mul_le_mul (hb.diam_le e.1).2 h2 (edgeL2_self e _) hM0.le
      linarith
    · positivity
  refine (sum_le_sum fun e _ => h1 e).trans ?_
  rw [← mul_sum, ← mul_sum]
  have := mul_le_mul_of_nonneg_left (sum_len hb ht) (show 0 ≤ 2 * G ^ 2 by positivity)
  linarith

theorem ghost_le (hb : m.Bounds hm hM δ R) (ht : m.Tiles) {v : m.Broken} {G : ℝ} (h : GradLe v G) :
    m.space.ghost v v ≤ 24 * (hM ^ 2 / δ) * G ^ 2 := by
  rw [space_ghost]
  have h1 : ∀ e : m.Edge, ((m.nb e).elim 0 fun e' => 1 / 2 * (m.diam e.1 + m.diam e'.1) * ∑ b, m.edgeL2 e (m.jump e e' b v) (m.jump e e' b v))
      ≤ 8 * G ^ 2 * (hM * len e) := by
    intro e
    have hM0 : 0 < hM := hb.hm0.trans_le hb.le
    have hl := len_pos e
    rcases hn : m.nb e with _ | e'
    · simp only [Option.elim_none]; positivity
    · simp only [Option.elim_some]
      have hj : ∀ b, m.edgeL2 e (m.jump e e' b v) (m.jump e e' b v) ≤ (2 * G) ^ 2 * len e := by
        intro b
        refine edge_sq_le e fun s h0 h1 => ?_
        change |(pd b (v e.1)).1 (segPt (src e) (tgt e) s) - (pd b (v e'.1)).1 (segPt (src e) (tgt e) s)| ≤ _
        have a := h.edge e b h0 h1
        have c := h.edge e' b (s := 1 - s) (by linarith) (by linarith)
        rw [(glued hn).1, (glued hn).2, show segPt (tgt e) (src e) (1 - s) = segPt (src e) (tgt e) s from
          funext fun c => by unfold segPt; ring] at c
        refine (abs_sub _ _).trans ?_
        linarith
      have hs : ∑ b, m.edgeL2 e (m.jump e e' b v) (m.jump e e' b v) ≤ 2 * ((2 * G) ^ 2 * len e) := by
        rw [Fin.sum_univ_two]; linarith [hj 0, hj 1]
      have hd : 1 / 2 * (m.diam e.1 + m.diam e'.1) ≤ hM := by linarith [(hb.diam_le e.1).2, (hb.diam_le e'.1).2]
      have := mul_le_mul hd hs (sum_nonneg fun b _ => edgeL2_self e _) hM0.le
      linarith
  have h2 := sum_le_sum fun e (_ : e ∈ univ) => h1 e
  rw [← mul_sum, ← mul_sum] at h2
  have := mul_le_mul_of_nonneg_left (sum_len hb ht) (show 0 ≤ 8 * G ^ 2 by positivity)
  linarith

/-! ### The sample solution of solve_2d.py -/

section
open Real

theorem sin2 (x : Fin 2 → ℝ) : (sines 1 : AnaD 2).1 x = sin (π * x 0) * sin (π * x 1) := by
  change 1 * ∏ a, _ = _
  rw [Fin.prod_univ_two, one_mul]

theorem has_sin (a : ℝ) : HasDerivAt (fun s => sin (π * (a + s))) (π * cos (π * a)) 0 := by
  have h : HasDerivAt (fun s : ℝ => π * (a + s)) π 0 := by
    simpa using ((hasDerivAt_id (0:ℝ)).const_add a).const_mul π
  have := h.sin
  simp only [add_zero] at this
  exact this.congr_deriv (mul_comm _ _)

theorem has_cos (a : ℝ) : HasDerivAt (fun s => cos (π * (a + s))) (-(π * sin (π * a))) 0 := by
  have h : HasDerivAt (fun s : ℝ => π * (a + s)) π 0 := by
    simpa using ((hasDerivAt_id (0:ℝ)).const_add a).const_mul π
  have := h.cos
  simp only [add_zero] at this
  exact this.congr_deriv (by ring)

theorem line0 (x : Fin 2 → ℝ) (s : ℝ) : (fun c => x c + s * (Pi.single 0 1 : Fin 2 → ℝ) c) = ![x 0 + s, x 1] := by
  funext c; fin_cases c <;> simp
theorem line1 (x : Fin 2 → ℝ) (s : ℝ) : (fun c => x c + s * (Pi.single 1 1 : Fin 2 → ℝ) c) = ![x 0, x 1 + s] := by
  funext c; fin_cases c <;> simp

theorem pd0_sin (x : Fin 2 → ℝ) : (pd 0 (sines 1 : AnaD 2)).1 x = π * cos (π * x 0) * sin (π * x 1) := by
  refine pd_of_line ?_
  simp only [line0, sin2, Matrix.cons_val_zero, Matrix.cons_val_one]
  exact (has_sin _).mul_const _

theorem pd1_sin (x : Fin 2 → ℝ) : (pd 1 (sines 1 : AnaD 2)).1 x = sin (π * x 0) * (π * cos (π * x 1)) := by
  refine pd_of_line ?_
  simp only [line1, sin2, Matrix.cons_val_zero, Matrix.cons_val_one]
  exact (has_sin _).const_mul _

theorem abs_mul_le_one {a b : ℝ} (ha : |a| ≤ 1) (hb : |b| ≤ 1) : |a * b| ≤ 1 := by
  rw [abs_mul]; exact mul_le_one₀ ha (abs_nonneg _) hb

theorem sin_bd2 : Bd2 (π ^ 2) (sines 1) := by
  have key : ∀ {r a b : ℝ}, |a| ≤ 1 → |b| ≤ 1 → (r = π ^ 2 * (a * b) ∨ r = -(π ^ 2 * (a * b))) → |r| ≤ π ^ 2 := by
    intro r a b ha hb hr
    have : |r| = π ^ 2 * |a * b| := by
      rcases hr with rfl | rfl
      · rw [abs_mul, abs_of_nonneg (by positivity)]
      · rw [abs_neg, abs_mul, abs_of_nonneg (by positivity)]
    rw [this]
    exact mul_le_of_le_one_right (by positivity) (abs_mul_le_one ha hb)
  have S := abs_sin_le_one
  have K := abs_cos_le_one
  have e00 : ∀ x, (pd 0 (pd 0 (sines 1 : AnaD 2))).1 x = π * (-(π * sin (π * x 0))) * sin (π * x 1) := fun x => by
    refine pd_of_line ?_
    simp only [line0, pd0_sin, Matrix.cons_val_zero, Matrix.cons_val_one]
    exact ((has_cos _).const_mul _).mul_const _
  have e10 : ∀ x, (pd 1 (pd 0 (sines 1 : AnaD 2))).1 x = π * cos (π * x 0) * (π * cos (π * x 1)) := fun x => by
    refine pd_of_line ?_
    simp only [line1, pd0_sin, Matrix.cons_val_zero, Matrix.cons_val_one]
    exact (has_sin _).const_mul _
  have e01 : ∀ x, (pd 0 (pd 1 (sines 1 : AnaD 2))).1 x = π * cos (π * x 0) * (π * cos (π * x 1)) := fun x => by
    refine pd_of_line ?_
    simp only [line0, pd1_sin, Matrix.cons_val_zero, Matrix.cons_val_one]
    exact (has_sin _).mul_const _
  have e11 : ∀ x, (pd 1 (pd 1 (sines 1 : AnaD 2))).1 x = sin (π * x 0) * (π * (-(π * sin (π * x 1)))) := fun x => by
    refine pd_of_line ?_
    simp only [line1, pd1_sin, Matrix.cons_val_zero, Matrix.cons_val_one]
    exact ((has_cos _).const_mul _).const_mul _
  intro b c x
  fin_cases b <;> fin_cases c
  · exact key (S (π * x 0)) (S (π * x 1)) (Or.inr (by change (pd 0 (pd 0 (sines 1 : AnaD 2))).1 x = _; rw [e00]; ring))
  · exact key (K (π * x 0)) (K (π * x 1)) (Or.inl (by change (pd 0 (pd 1 (sines 1 : AnaD 2))).1 x = _; rw [e01]; ring))
  · exact key (K (π * x 0)) (K (π * x 1)) (Or.inl (by change (pd 1 (pd 0 (sines 1 : AnaD 2))).1 x = _; rw [e10]; ring))
  · exact key (S (π * x 0)) (S (π * x 1)) (Or.inr (by change (pd 1 (pd 1 (sines 1 : AnaD 2))).1 x = _; rw [e11]; ring))

theorem sin_grad2 : GradLe (m.fn (sines 1)) π := by
  intro K b s t _ _ _
  set x := refPt (m.v K 0) (m.v K 1) (m.v K 2) s t
  have key : ∀ {r a b : ℝ}, |a| ≤ 1 → |b| ≤ 1 → r = π * (a * b) → |r| ≤ π := by
    rintro r a b ha hb rfl
    rw [abs_mul, abs_of_pos pi_pos]
    exact mul_le_of_le_one_right pi_pos.le (abs_mul_le_one ha hb)
  fin_cases b
  · exact key (abs_cos_le_one (π * x 0)) (abs_sin_le_one (π * x 1)) ((pd0_sin x).trans (by ring))
  · exact key (abs_sin_le_one (π * x 0)) (abs_cos_le_one (π * x 1)) ((pd1_sin x).trans (by ring))

theorem sin_abs (x : Fin 2 → ℝ) : |(sines 1 : AnaD 2).1 x| ≤ 1 := by
  rw [sin2]; exact abs_mul_le_one (abs_sin_le_one _) (abs_sin_le_one _)

end

/-! ### The interpolant -/

/-- The continuous piecewise linear interpolant of a function. -/
noncomputable def pw (m : Tri) (f : AnaD 2) : m.Broken := fun K => lin (m.v K 0) (m.v K 1) (m.v K 2) f

theorem pw_edge (f : AnaD 2) (e : m.Edge) (s : ℝ) :
    (m.pw f e.1).1 (segPt (src e) (tgt e) s) = (1 - s) * f.1 (src e) + s * f.1 (tgt e) := by
  obtain ⟨K, i⟩ := e
  have h := lin_ref (m.pos K) f
  fin_cases i
  · have : segPt (src (m := m) (K, 0)) (tgt (m := m) (K, 0)) s = refPt (m.v K 0) (m.v K 1) (m.v K 2) s 0 :=
      funext fun c => by change m.v K 0 c + s * (m.v K 1 c - m.v K 0 c) = _; unfold refPt; ring
    change (lin _ _ _ f).1 (segPt (src (m := m) (K, 0)) (tgt (m := m) (K, 0)) s) = (1 - s) * f.1 (m.v K 0) + s * f.1 (m.v K 1)
    rw [this, h]; ring
  · have : segPt (src (m := m) (K, 1)) (tgt (m := m) (K, 1)) s = refPt (m.v K 0) (m.v K 1) (m.v K 2) (1 - s) s :=
      funext fun c => by change m.v K 1 c + s * (m.v K 2 c - m.v K 1 c) = _; unfold refPt; ring
    change (lin _ _ _ f).1 (segPt (src (m := m) (K, 1)) (tgt (m := m) (K, 1)) s) = (1 - s) * f.1 (m.v K 1) + s * f.1 (m.v K 2)
    rw [this, h]; ring
  · have : segPt (src (m := m) (K, 2)) (tgt (m := m) (K, 2)) s = refPt (m.v K 0) (m.v K 1) (m.v K 2) 0 (1 - s) :=
      funext fun c => by change m.v K 2 c + s * (m.v K 0 c - m.v K 2 c) = _; unfold refPt; ring
    change (lin _ _ _ f).1 (segPt (src (m := m) (K, 2)) (tgt (m := m) (K, 2)) s) = (1 - s) * f.1 (m.v K 2) + s * f.1 (m.v K 0)
    rw [this, h]; ring

theorem pw_mem (f : AnaD 2) {k : ℕ} (hk : 1 ≤ k) : m.pw f ∈ m.lagrange k := by
  refine m.mem_lagrange.2 ⟨fun K => aff_total _ _ _ hk, fun e e' h s hs => ?_⟩
  have h1 := pw_edge f e s
  have h2 := pw_edge f e' (1 - s)
  rw [(glued h).1, (glued h).2, show segPt (tgt e) (src e) (1 - s) = segPt (src e) (tgt e) s from
    funext fun c => by unfold segPt; ring] at h2
  rw [h1, h2]; ring

theorem pw_lap (f : AnaD 2) : m.space.lap (m.pw f) = 0 := by
  funext K
  change (∑ b, ((AnaD.pd b).comp (AnaD.pd b)).comp (LinearMap.proj K)) (m.pw f) = 0
  rw [LinearMap.sum_apply]
  exact sum_eq_zero fun b _ => pd_pd_aff _ _ _ b

theorem pw_err (hb : m.Bounds hm hM δ R) {M : ℝ} {f : AnaD 2} (hf : Bd2 M f) (K : Fin m.n) {s t : ℝ} (hs : 0 ≤ s) (ht : 0 ≤ t) (hst : s + t ≤ 1) :
    |((m.fn f - m.pw f) K).1 (refPt (m.v K 0) (m.v K 1) (m.v K 2) s t)| ≤ 2 * M * hM ^ 2
      ∧ ∀ b, |(pd b ((m.fn f - m.pw f) K)).1 (refPt (m.v K 0) (m.v K 1) (m.v K 2) s t)| ≤ 4 * M * hM ^ 3 / δ :=
  lin_err hf hb.δ0 (hb.area K) (hb.hi (K, 0)) (hb.hi (K, 1)) (hb.hi (K, 2)) hs ht hst

theorem pw_grad (hb : m.Bounds hm hM δ R) {M : ℝ} {f : AnaD 2} (hf : Bd2 M f) : GradLe (m.fn f - m.pw f) (4 * M * hM ^ 3 / δ) :=
  fun K b _ _ hs ht hst => (pw_err hb hf K hs ht hst).2 b

theorem mass_le {v : m.Broken} {c : ℝ} (ht : m.Tiles) (h : ∀ K s t, 0 ≤ s → 0 ≤ t → s + t ≤ 1 →
    |(v K).1 (refPt (m.v K 0) (m.v K 1) (m.v K 2) s t)| ≤ c) : m.space.mass v v ≤ c ^ 2 := by
  rw [space_mass]
  refine (sum_le_sum fun K _ => (cell_sq_le K (h K)).trans_eq (by rw [cell_one])).trans (le_of_eq ?_)
  rw [← mul_sum, ← sum_div, ht.area]
  ring

theorem pw_abs {f : AnaD 2} (hf : ∀ x, |f.1 x| ≤ 1) (K : Fin m.n) {s t : ℝ} (hs : 0 ≤ s) (ht : 0 ≤ t) (hst : s + t ≤ 1) :
    |(m.pw f K).1 (refPt (m.v K 0) (m.v K 1) (m.v K 2) s t)| ≤ 1 := by
  change |(lin _ _ _ f).1 _| ≤ 1
  rw [lin_ref (m.pos K)]
  refine (abs_add_le _ _).trans ((add_le_add_left (abs_add_le _ _) _).trans ?_)
  rw [abs_mul, abs_mul, abs_mul, abs_of_nonneg hs, abs_of_nonneg ht, abs_of_nonneg (by linarith : 0 ≤ 1 - s - t)]
  have a := mul_le_mul_of_nonneg_left (hf (m.v K 0)) (by linarith : 0 ≤ 1 - s - t)
  have b := mul_le_mul_of_nonneg_left (hf (m.v K 1)) hs
  have c := mul_le_mul_of_nonneg_left (hf (m.v K 2)) ht
  linarith

theorem omega_one (u v : m.Broken) : m.space.omega m.space.one u v = m.space.mass u v := by
  rw [space_omega, space_mass]
  refine sum_congr rfl fun K _ => ?_
  have : AnaD.mul (m.space.one K) (u K) = u K := Subtype.ext (funext fun x => one_mul _)
  rw [this]

end Tri
end Dxss
