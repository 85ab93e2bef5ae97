import Verif.Lemmas.TriInt

/-! # Green's formula on triangulations -/

namespace Dxss
open Finset MeasureTheory

namespace AnaD

/-- Product rule. -/
theorem pd_mul2 {d : ℕ} (b : Fin d) (f g : AnaD d) : pd b (mul f g) = mul (pd b f) g + mul f (pd b g) := by
  refine Subtype.ext (funext fun x => ?_)
  change fderiv ℝ (fun x => f.1 x * g.1 x) x _ = fderiv ℝ f.1 x _ * g.1 x + f.1 x * fderiv ℝ g.1 x _
  rw [fderiv_fun_mul (diff f x) (diff g x)]
  simp only [add_apply, smul_apply, smul_eq_mul]
  ring

/-- A coordinate. -/
noncomputable def coord {d : ℕ} (b : Fin d) : AnaD d :=
  ⟨fun x => x b, mem ((ContinuousLinearMap.proj (R := ℝ) (φ := fun _ : Fin d => ℝ) b).analyticOnNhd Set.univ)⟩

theorem pd_coord {d : ℕ} (b : Fin d) (g : AnaD d) : mul (pd b (coord b)) g = g := by
  refine Subtype.ext (funext fun x => ?_)
  change fderiv ℝ (fun x : Fin d → ℝ => x b) x (Pi.single b 1) * g.1 x = g.1 x
  have : fderiv ℝ (fun x : Fin d → ℝ => x b) x = ContinuousLinearMap.proj (R := ℝ) (φ := fun _ : Fin d => ℝ) b :=
    (ContinuousLinearMap.proj (R := ℝ) (φ := fun _ : Fin d => ℝ) b).fderiv
  rw [this]
  simp

theorem segLen_symm (A B : Fin 2 → ℝ) : segLen B A = segLen A B := by
  unfold segLen; congr 1; ring

theorem segNrm_symm (A B : Fin 2 → ℝ) (b : Fin 2) : segNrm B A b = -segNrm A B b := by
  unfold segNrm
  rw [segLen_symm]
  fin_cases b <;> simp <;> ring

theorem segInt_symm (A B : Fin 2 → ℝ) (f : AnaD 2) : segInt B A f = segInt A B f := by
  rw [segInt_eq, segInt_eq, segLen_symm, ← seg_reverse]
  congr 1
  refine intervalIntegral.integral_congr fun s _ => congrArg f.1 (funext fun c => ?_)
  simp only [segPt]; ring

end AnaD

namespace Tri
variable {m : Tri}
open AnaD

theorem det_pos (K : Fin m.n) (i : Fin 3) : 0 < det2 (m.v K i) (m.v K (i + 1)) (m.v K (i + 2)) := by
  have h := m.pos K
  fin_cases i
  · exact h
  · have : det2 (m.v K 1) (m.v K 2) (m.v K 0) = det2 (m.v K 0) (m.v K 1) (m.v K 2) := by unfold det2; ring
    exact this ▸ h
  · have : det2 (m.v K 2) (m.v K 0) (m.v K 1) = det2 (m.v K 0) (m.v K 1) (m.v K 2) := by unfold det2; ring
    exact this ▸ h

theorem len_pos (e : m.Edge) : 0 < len e := by
  have h := det_pos e.1 e.2
  refine Real.sqrt_pos.2 ?_
  by_contra h0
  have h1 := sq_nonneg (tgt e 0 - src e 0)
  have h2 := sq_nonneg (tgt e 1 - src e 1)
  have z1 : tgt e 0 - src e 0 = 0 := pow_eq_zero_iff (n := 2) two_ne_zero |>.1 (by linarith)
  have z2 : tgt e 1 - src e 1 = 0 := pow_eq_zero_iff (n := 2) two_ne_zero |>.1 (by linarith)
  unfold src tgt at z1 z2
  rw [det2, z1, z2] at h
  simp at h

theorem len_nrm (e : m.Edge) : len e * nrm e 0 = tgt e 1 - src e 1 ∧ len e * nrm e 1 = -(tgt e 0 - src e 0) := by
  have := (len_pos e).ne'
  constructor
  · change len e * ((tgt e 1 - src e 1) / len e) = _
    field_simp
  · change len e * (-(tgt e 0 - src e 0) / len e) = _
    field_simp

theorem nrm_sq (e : m.Edge) : nrm e 0 ^ 2 + nrm e 1 ^ 2 = 1 := by
  have h := len_pos e
  have h2 : len e ^ 2 = (tgt e 0 - src e 0) ^ 2 + (tgt e 1 - src e 1) ^ 2 := Real.sq_sqrt (by positivity)
  obtain ⟨h3, h4⟩ := len_nrm e
  have : len e ^ 2 * (nrm e 0 ^ 2 + nrm e 1 ^ 2) = len e ^ 2 := by
    rw [mul_add, ← mul_pow, ← mul_pow, h3, h4, h2]; ring
  exact mul_left_cancel₀ (pow_ne_zero 2 h.ne') (this.trans (mul_one _).symm)

/-- The integral over an edge of a triangle. -/
noncomputable def edgeInt (e : m.Edge) : AnaD 2 →ₗ[ℝ] ℝ := segInt (src e) (tgt e)
noncomputable def cellInt (K : Fin m.n) : AnaD 2 →ₗ[ℝ] ℝ := triInt (m.v K 0) (m.v K 1) (m.v K 2)

theorem edgeInt_eq (e : m.Edge) (f : AnaD 2) : edgeInt e f = len e * segMean (src e) (tgt e) f := rfl

/-- The divergence theorem on a triangle. -/
theorem cell_div (K : Fin m.n) (b : Fin 2) (f : AnaD 2) :
    cellInt K (pd b f) = ∑ i, nrm (m := m) (K, i) b * edgeInt (m := m) (K, i) f := by
  have e : ∀ i, nrm (m := m) (K, i) b * edgeInt (m := m) (K, i) f
      = len (m := m) (K, i) * nrm (m := m) (K, i) b * segMean (src (m := m) (K, i)) (tgt (m := m) (K, i)) f := fun i => by
    rw [edgeInt_eq]; ring
  simp only [e, Fin.sum_univ_three]
  fin_cases b
  · simp only [Fin.zero_eta, (len_nrm _).1]
    exact div_x _ _ _ f
  · simp only [Fin.mk_one, (len_nrm _).2]
    refine (div_y _ _ _ f).trans ?_
    change _ = -(m.v K 1 0 - m.v K 0 0) * segMean (m.v K 0) (m.v K 1) f + -(m.v K 2 0 - m.v K 1 0) * segMean (m.v K 1) (m.v K 2) f
      + -(m.v K 0 0 - m.v K 2 0) * segMean (m.v K 2) (m.v K 0) f
    ring

theorem cellL2_eq (K : Fin m.n) (f g : AnaD 2) : m.cellL2 K f g = cellInt K (mul f g) := rfl
theorem edgeL2_eq (e : m.Edge) (f g : AnaD 2) : m.edgeL2 e f g = edgeInt e (mul f g) := rfl

/-- Green's formula on a triangle. -/
theorem cell_green (K : Fin m.n) (u w : AnaD 2) : ∑ b, m.cellL2 K (pd b u) (pd b w)
    = -m.cellL2 K (∑ b, pd b (pd b u)) w + ∑ i, m.edgeL2 (K, i) (dir (nrm (m := m) (K, i)) u) w := by
  have h : ∀ b, m.cellL2 K (pd b u) (pd b w) = -m.cellL2 K (pd b (pd b u)) w
      + ∑ i, nrm (m := m) (K, i) b * m.edgeL2 (K, i) (pd b u) w := by
    intro b
    have := cell_div K b (mul (pd b u) w)
    rw [pd_mul2, map_add] at this
    simp only [cellL2_eq, edgeL2_eq]
    linarith
  simp only [h, sum_add_distrib, Fin.sum_univ_two, map_add, LinearMap.add_apply, dir, LinearMap.smul_apply, map_smul, smul_eq_mul, neg_add]

/-! ### Sums over edges -/

theorem nb_symm (e e' : m.Edge) : m.nb e = some e' ↔ m.nb e' = some e := ⟨m.sym e e', m.sym e' e⟩

theorem elim_eq_sum (e : m.Edge) (φ : m.Edge → ℝ) : (m.nb e).elim 0 φ = ∑ e', if m.nb e = some e' then φ e' else 0 := by
  rcases h : m.nb e with _ | e'
  · simp
  · simp only [Option.elim_some, Option.some.injEq]
    rw [sum_ite_eq univ e' φ]
    simp

theorem sum_swap (φ : m.Edge → ℝ) : ∑ e : m.Edge, (m.nb e).elim 0 φ = ∑ e : m.Edge, (m.nb e).elim 0 fun _ => φ e := by
  simp only [elim_eq_sum]
  rw [sum_comm]
  refine sum_congr rfl fun e _ => sum_congr rfl fun e' _ => if_congr (nb_symm _ _) rfl rfl

/-- A sum over all edges of triangles: boundary and interior facets. -/
theorem sum_edges (φ : m.Edge → ℝ) : ∑ e, φ e
    = (∑ e, if m.nb e = none then φ e else 0) + 1 / 2 * ∑ e : m.Edge, (m.nb e).elim 0 fun e' => φ e + φ e' := by
  have h1 : ∀ e : m.Edge, φ e = (if m.nb e = none then φ e else 0) + (m.nb e).elim 0 fun _ => φ e := by
    intro e
    rcases m.nb e <;> simp
  have h2 : ∀ e : m.Edge, ((m.nb e).elim 0 fun e' => φ e + φ e') = ((m.nb e).elim 0 fun _ => φ e) + (m.nb e).elim 0 φ := by
    intro e
    rcases m.nb e <;> simp
  conv_lhs => rw [sum_congr rfl fun e _ => h1 e]
  simp only [sum_add_distrib, h2, sum_swap φ]
  ring

theorem edge_sum (φ : m.Edge → ℝ) : ∑ K, ∑ i, φ (K, i) = ∑ e, φ e := (Fintype.sum_prod_type φ).symm

/-- The two sides of an interior facet. -/
theorem glued {e e' : m.Edge} (h : m.nb e = some e') : src e' = tgt e ∧ tgt e' = src e := m.glue e e' h

theorem glued_int {e e' : m.Edge} (h : m.nb e = some e') (f : AnaD 2) : edgeInt e' f = edgeInt e f := by
  rw [edgeInt, (glued h).1, (glued h).2]
  exact segInt_symm _ _ _

theorem glued_nrm {e e' : m.Edge} (h : m.nb e = some e') (b : Fin 2) : nrm e' b = -nrm e b := by
  rw [nrm, (glued h).1, (glued h).2]
  exact segNrm_symm _ _ _

variable (m)
/-- Continuous across the interior facets. -/
def Conforming (u : m.Broken) : Prop :=
  ∀ e e', m.nb e = some e' → ∀ s ∈ Set.Icc (0:ℝ) 1, (u e.1).1 (segPt (src e) (tgt e) s) = (u e'.1).1 (segPt (src e) (tgt e) s)

theorem mem_lagrange {k : ℕ} {u : m.Broken} : u ∈ m.lagrange k ↔
    (∀ K, ∃ c : ℕ → ℕ → ℝ, ∀ x, (u K).1 x = ∑ i ∈ range (k + 1), ∑ j ∈ range (k + 1 - i), c i j * (x 0 ^ i * x 1 ^ j)) ∧ m.Conforming u :=
  Iff.rfl

/-- Green's formula on a triangulation. -/
theorem green (u : m.Broken) {w : m.Broken} (hw : m.Conforming w) : m.space.stiff u w
    = -m.space.mass (m.space.lap u) w + m.space.nit u w
      + 1 / 2 * ∑ e : m.Edge, (m.nb e).elim 0 fun e' => ∑ b, nrm e b * m.edgeL2 e (m.jump e e' b u) (w e.1) := by
  rw [space_stiff, sum_congr rfl fun K _ => cell_green K (u K) (w K), sum_add_distrib, sum_neg_distrib,
    edge_sum fun e => m.edgeL2 e (dir (nrm e) (u e.1)) (w e.1), sum_edges, ← space_nit, space_mass, ← add_assoc]
  have hl : ∀ K, m.cellL2 K (∑ b, pd b (pd b (u K))) (w K) = m.cellL2 K (m.space.lap u K) (w K) := by
    intro K
    congr 2
  rw [sum_congr rfl fun K _ => hl K]
  congr 1
  · refine congrArg _ (sum_congr rfl fun e _ => ?_)
    rcases h : m.nb e with _ | e'
    · rfl
    · simp only [Option.elim_some]
      have e1 : m.edgeL2 e' (dir (nrm e') (u e'.1)) (w e'.1) = -m.edgeL2 e (dir (nrm e) (u e'.1)) (w e.1) := by
        rw [edgeL2_eq, glued_int h, edgeL2_eq, ← map_neg]
        refine segInt_congr fun s h0 h1 => ?_
        change (nrm e' 0 * (pd 0 (u e'.1)).1 _ + nrm e' 1 * (pd 1 (u e'.1)).1 _) * (w e'.1).1 _
          = -((nrm e 0 * (pd 0 (u e'.1)).1 _ + nrm e 1 * (pd 1 (u e'.1)).1 _) * (w e.1).1 _)
        rw [glued_nrm h, glued_nrm h, hw e e' h s ⟨h0, h1⟩]
        ring
      rw [e1]
      simp only [Fin.sum_univ_two, dir, LinearMap.add_apply, LinearMap.smul_apply, map_add, map_smul, smul_eq_mul, jump,
        LinearMap.sub_apply, map_sub, LinearMap.comp_apply]
      simp only [cell, LinearMap.proj_apply]
      ring

/-- The formula behind Poincaré's inequality: the divergence theorem for `x u²`. -/
theorem poincare_eq {u : m.Broken} (hu : m.Conforming u) :
    2 * m.space.mass u u + 2 * ∑ K, ∑ b, m.cellL2 K (mul (coord b) (pd b (u K))) (u K)
      = ∑ e, if m.nb e = none then ∑ b, nrm e b * edgeInt e (mul (coord b) (mul (u e.1) (u e.1))) else 0 := by
  have h : ∀ K b, cellInt K (mul (u K) (u K)) + 2 * m.cellL2 K (mul (coord b) (pd b (u K))) (u K)
      = ∑ i, nrm (m := m) (K, i) b * edgeInt (m := m) (K, i) (mul (coord b) (mul (u K) (u K))) := by
    intro K b
    have := cell_div K b (mul (coord b) (mul (u K) (u K)))
    rw [pd_mul2, pd_coord, pd_mul2, map_add] at this
    rw [← this, cellL2_eq]
    congr 1
    rw [two_mul, ← map_add]
    refine congrArg _ (Subtype.ext (funext fun x => ?_))
    change x b * (pd b (u K)).1 x * (u K).1 x + x b * (pd b (u K)).1 x * (u K).1 x
      = x b * ((pd b (u K)).1 x * (u K).1 x + (u K).1 x * (pd b (u K)).1 x)
    ring
  have h2 : 2 * m.space.mass u u + 2 * ∑ K, ∑ b, m.cellL2 K (mul (coord b) (pd b (u K))) (u K)
      = ∑ K, ∑ i, ∑ b, nrm (m := m) (K, i) b * edgeInt (m := m) (K, i) (mul (coord b) (mul (u K) (u K))) := by
    rw [space_mass, mul_sum, mul_sum, ← sum_add_distrib]
    refine sum_congr rfl fun K _ => ?_
    rw [sum_comm, ← sum_congr rfl fun b _ => h K b, sum_add_distrib, mul_sum]
    simp only [Fin.sum_univ_two, cellL2_eq]
    ring
  rw [h2, edge_sum fun e => ∑ b, nrm e b * edgeInt e (mul (coord b) (mul (u e.1) (u e.1))), sum_edges]
  rw [add_eq_left]
  refine mul_eq_zero_of_right _ (sum_eq_zero fun e _ => ?_)
  rcases h : m.nb e with _ | e'
  · rfl
  · simp only [Option.elim_some]
    rw [← sum_add_distrib]
    refine sum_eq_zero fun b _ => ?_
    have e1 : edgeInt e' (mul (coord b) (mul (u e'.1) (u e'.1))) = edgeInt e (mul (coord b) (mul (u e.1) (u e.1))) := by
      rw [glued_int h]
      refine segInt_congr fun s h0 h1 => ?_
      change _ * ((u e'.1).1 _ * (u e'.1).1 _) = _ * ((u e.1).1 _ * (u e.1).1 _)
      rw [hu e e' h s ⟨h0, h1⟩]
    rw [e1, glued_nrm h]
    ring

end Tri
end Dxss
