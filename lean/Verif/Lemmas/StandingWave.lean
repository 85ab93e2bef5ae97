import Verif.Lemmas.Dist1
import Verif.Props.Wave1

/-!
# Standing waves and their interpolants which are linear in time on each slab, on any domain
-/

namespace Dxss
open Finset

/-! ### Time factors -/

section
variable (ω : ℝ)

noncomputable def sa (t : ℝ) : ℝ := Real.cos (ω * t)
noncomputable def sb (t : ℝ) : ℝ := -ω * Real.sin (ω * t)

theorem sa_deriv (t : ℝ) : HasDerivAt (sa ω) (sb ω t) t := by
  have h0 : HasDerivAt (fun y : ℝ => ω * y) ω t := by simpa using (hasDerivAt_id t).const_mul ω
  refine ((Real.hasDerivAt_cos _).comp t h0).congr_deriv ?_
  unfold sb; ring

theorem sb_deriv (t : ℝ) : HasDerivAt (sb ω) (-ω ^ 2 * sa ω t) t := by
  have h0 : HasDerivAt (fun y : ℝ => ω * y) ω t := by simpa using (hasDerivAt_id t).const_mul ω
  refine (((Real.hasDerivAt_sin _).comp t h0).const_mul (-ω)).congr_deriv ?_
  unfold sa; ring

theorem sc_deriv (t : ℝ) : HasDerivAt (fun t => -ω ^ 2 * sa ω t) (-ω ^ 2 * sb ω t) t := (sa_deriv ω t).const_mul _

theorem sa_le (t : ℝ) : |sa ω t| ≤ 1 := Real.abs_cos_le_one _

theorem sc_le (t : ℝ) : |-ω ^ 2 * sa ω t| ≤ ω ^ 2 := by
  rw [neg_mul, abs_neg, abs_mul, abs_of_nonneg (sq_nonneg _)]
  exact mul_le_of_le_one_right (sq_nonneg _) (sa_le ω t)

variable {ω} (hω : 0 < ω)
include hω

theorem sb_le (t : ℝ) : |sb ω t| ≤ ω := by
  unfold sb
  rw [abs_mul, abs_neg, abs_of_pos hω]
  exact mul_le_of_le_one_right hω.le (Real.abs_sin_le_one _)

theorem sd_le (t : ℝ) : |-ω ^ 2 * sb ω t| ≤ ω ^ 3 := by
  rw [neg_mul, abs_neg, abs_mul, abs_of_nonneg (sq_nonneg _), pow_succ]
  exact mul_le_mul_of_nonneg_left (sb_le hω t) (sq_nonneg _)

/-- Linear interpolation of the time factors. -/
theorem time_interp' {a b t : ℝ} (hab : a < b) (ht : t ∈ Set.Icc a b) :
    |sa ω t - ((b - t) / (b - a) * sa ω a + (t - a) / (b - a) * sa ω b)| ≤ ω ^ 2 * (b - a) ^ 2 / 8 ∧
    |sb ω t - (sa ω b - sa ω a) / (b - a)| ≤ ω ^ 2 * (b - a) / 2 ∧
    |sb ω t - ((b - t) / (b - a) * sb ω a + (t - a) / (b - a) * sb ω b)| ≤ ω ^ 3 * (b - a) ^ 2 / 8 ∧
    |-ω ^ 2 * sa ω t - (sb ω b - sb ω a) / (b - a)| ≤ ω ^ 3 * (b - a) / 2 := by
  have h1 := lin_interp (f := sa ω) (f' := sb ω) (f'' := fun t => -ω ^ 2 * sa ω t) (M := ω ^ 2) (sa_deriv ω) (sb_deriv ω) (sc_le ω) hab ht
  have h2 := lin_interp (f := sb ω) (f' := fun t => -ω ^ 2 * sa ω t) (f'' := fun t => -ω ^ 2 * sb ω t) (M := ω ^ 3) (sb_deriv ω) (sc_deriv ω)
    (sd_le hω) hab ht
  exact ⟨h1.1, h1.2, h2.1, h2.2⟩

end

section
variable {V : Type} [AddCommGroup V] [Module ℝ V]

/-- The standing wave `cos(ωt) s`. -/
noncomputable def standing (ω : ℝ) (s : V) : Spec.Path V :=
  ⟨fun t => sa ω t • s, fun t => sb ω t • s, fun t => sb ω t • s, fun t => (-ω ^ 2 * sa ω t) • s⟩

/-- An eigenfunction `s` of the Laplacian with boundary values zero, and its interpolant `i`: bounds for the terms of the method on `s` and on
the error `s - i`.  `g` bounds the boundary flux.  `κ` bounds the squared cell
diameters. -/
structure Mode (S : Space V) (g : V →ₗ[ℝ] V →ₗ[ℝ] ℝ) (ω : ℝ) (s i : V) (mS mE sS sE fS fE gE κ : ℝ) : Prop where
  pos : 0 < ω
  psd : S.Psd S.one
  flux_nonneg : ∀ v, 0 ≤ g v v
  flux : ∀ v y, S.nit v y ^ 2 ≤ g v v * S.pen y y
  massS : S.mass s s ≤ mS
  massE : S.mass (s - i) (s - i) ≤ mE
  stiffS : S.stiff s s ≤ sS
  stiffE : S.stiff (s - i) (s - i) ≤ sE
  fluxS : g s s ≤ fS
  fluxE : g (s - i) (s - i) ≤ fE
  penS : S.pen s s = 0
  penE : S.pen (s - i) (s - i) = 0
  ghostS : S.ghost s s = 0
  ghostE : S.ghost (s - i) (s - i) ≤ gE
  lapS : S.lap s = (-ω ^ 2) • s
  lapI : S.lap i = 0
  h2 : ∀ v, S.h2 v v ≤ κ * S.mass v v
  κ : 0 ≤ κ
  omega : ∀ u v, S.omega S.one u v = S.mass u v
  massI : S.mass i i ≤ 1
  one : S.mass S.one S.one = 1

/-- The errors at one time, as multiples of `s` and `s - i`: sizes of the factors. -/
structure Sizes' (ω dt : ℝ) (α1 β1 α2 β2 α3 β3 α4 β4 : ℝ) : Prop where
  a1 : |α1| ≤ ω ^ 2 * dt ^ 2 / 8
  b1 : |β1| ≤ 1
  a2 : |α2| ≤ ω ^ 3 * dt ^ 2 / 8
  a3 : |α3| ≤ ω ^ 2 * dt / 2
  a4 : |α4| ≤ ω ^ 3 * dt / 2
  b4 : |β4| ≤ ω ^ 2
  s : |α1 + β1| ≤ 1
  b32 : β3 - β2 = -(α3 - α2)

theorem bmix_le (B : V →ₗ[ℝ] V →ₗ[ℝ] ℝ) (hB : ∀ v, 0 ≤ B v v) {p r : V} {α β a b s w : ℝ}
    (hα : |α| ≤ a) (hβ : |β| ≤ b) (hs : B p p ≤ s) (hw : B r r ≤ w) :
    B (α • p + β • r) (α • p + β • r) ≤ 2 * (a ^ 2 * s) + 2 * (b ^ 2 * w) := by
  refine (bilin_add_le B hB _ _).trans ?_
  simp only [map_smul, LinearMap.smul_apply, smul_eq_mul]
  have h1 : α ^ 2 ≤ a ^ 2 := by rw [← sq_abs α]; exact pow_le_pow_left₀ (abs_nonneg _) hα 2
  have h2 : β ^ 2 ≤ b ^ 2 := by rw [← sq_abs β]; exact pow_le_pow_left₀ (abs_nonneg _) hβ 2
  have h3 : α ^ 2 * B p p ≤ a ^ 2 * s := mul_le_mul h1 hs (hB _) (sq_nonneg _)
  have h4 : β ^ 2 * B r r ≤ b ^ 2 * w := mul_le_mul h2 hw (hB _) (sq_nonneg _)
  linarith

variable {S : Space V} {g : V →ₗ[ℝ] V →ₗ[ℝ] ℝ} {ω : ℝ} {s i : V} {mS mE sS sE fS fE gE κ : ℝ}

/-- Bound of the density of the distance (`Spec.errDens`). -/
noncomputable def modeDens (D : Disc V) (ω mS mE sS sE fS fE gE κ : ℝ) : ℝ :=
  1 / D.gDual * ((2 * ((ω ^ 3 * D.dt / 2) ^ 2 * mS) + 2 * ((ω ^ 2) ^ 2 * mE))
      + (2 * ((ω ^ 2 * D.dt ^ 2 / 8) ^ 2 * sS) + 2 * sE) + 1 / D.lam * (2 * ((ω ^ 2 * D.dt ^ 2 / 8) ^ 2 * fS) + 2 * fE)
      + (2 * ((ω ^ 2 * D.dt / 2 + ω ^ 3 * D.dt ^ 2 / 8) ^ 2 * mS) + 2 * ((ω ^ 2 * D.dt / 2 + ω ^ 3 * D.dt ^ 2 / 8) ^ 2 * mE)))
    + D.gPrimal * (2 * gE
      + (2 * ((ω ^ 2 * D.dt / 2 + ω ^ 3 * D.dt ^ 2 / 8) ^ 2 * mS) + 2 * ((ω ^ 2 * D.dt / 2 + ω ^ 3 * D.dt ^ 2 / 8) ^ 2 * mE))
      + κ * (2 * (2 * ((ω ^ 3 * D.dt / 2) ^ 2 * mS) + 2 * ((ω ^ 2) ^ 2 * mE)) + 2 * (ω ^ 4 * mS)))

/-- Bound of the square of the error. -/
noncomputable def modeErr (D : Disc V) (ω mS mE : ℝ) : ℝ := 2 * ((ω ^ 2 * D.dt ^ 2 / 8) ^ 2 * mS) + 2 * mE

theorem mode_dens (h : Mode S g ω s i mS mE sS sE fS fE gE κ) {D : Disc V} (hd : 0 < D.gDual) (hl : 0 < D.lam) (hp : 0 < D.gPrimal)
    {α1 β1 α2 β2 α3 β3 α4 β4 : ℝ} (z : Sizes' ω D.dt α1 β1 α2 β2 α3 β3 α4 β4) :
    Spec.errDens S D g (α1 • s + β1 • (s - i)) (α2 • s + β2 • (s - i)) (α3 • s + β3 • (s - i)) (α4 • s + β4 • (s - i))
      ≤ modeDens D ω mS mE sS sE fS fE gE κ ∧
    S.mass (α1 • s + β1 • (s - i)) (α1 • s + β1 • (s - i)) ≤ modeErr D ω mS mE := by
  have P := h.psd
  have one1 : ∀ x : ℝ, (1:ℝ) ^ 2 * x = x := fun x => by ring
  have a32 : |α3 - α2| ≤ ω ^ 2 * D.dt / 2 + ω ^ 3 * D.dt ^ 2 / 8 := (abs_sub _ _).trans (add_le_add z.a3 z.a2)
  have m1 := bmix_le _ P.mass z.a1 z.b1 h.massS h.massE
  have m4 := bmix_le _ P.mass z.a4 z.b4 h.massS h.massE
  have m32 := bmix_le _ P.mass a32 (β := β3 - β2) (b := ω ^ 2 * D.dt / 2 + ω ^ 3 * D.dt ^ 2 / 8) (by rw [z.b32, abs_neg]; exact a32)
    h.massS h.massE
  have s1 := bmix_le _ P.stiff z.a1 z.b1 h.stiffS h.stiffE
  have f1 := bmix_le _ h.flux_nonneg z.a1 z.b1 h.fluxS h.fluxE
  have p1 := bmix_le _ P.pen z.a1 z.b1 h.penS.le h.penE.le
  have g1 := bmix_le _ P.ghost z.a1 z.b1 h.ghostS.le h.ghostE
  rw [one1] at m1 s1 f1 p1 g1
  have hlap : S.lap (α1 • s + β1 • (s - i)) = (-ω ^ 2 * (α1 + β1)) • s := by
    rw [map_add, map_smul, map_smul, map_sub, h.lapS, h.lapI, sub_zero, smul_smul, smul_smul, ← add_smul]
    congr 1; ring
  have r : S.mass (α4 • s + β4 • (s - i) - S.lap (α1 • s + β1 • (s - i))) (α4 • s + β4 • (s - i) - S.lap (α1 • s + β1 • (s - i)))
      ≤ 2 * (2 * ((ω ^ 3 * D.dt / 2) ^ 2 * mS) + 2 * ((ω ^ 2) ^ 2 * mE)) + 2 * (ω ^ 4 * mS) := by
    rw [hlap]
    refine (sub_smul_le _ P.mass _ _ _).trans ?_
    have q : (α1 + β1) ^ 2 ≤ 1 := by rw [← sq_abs]; exact pow_le_one₀ (abs_nonneg _) z.s
    have q1 : (-ω ^ 2 * (α1 + β1)) ^ 2 ≤ ω ^ 4 := by
      calc _ = ω ^ 4 * (α1 + β1) ^ 2 := by ring
        _ ≤ ω ^ 4 * 1 := mul_le_mul_of_nonneg_left q (by positivity)
        _ = _ := by ring
    have := mul_le_mul q1 h.massS (P.mass _) (by positivity)
    linarith
  constructor
  · unfold Spec.errDens Spec.primalStab modeDens
    rw [bilin_sub_swap _ (α2 • s + β2 • (s - i)), mix_sub_aux]
    have r' := (h.h2 _).trans (mul_le_mul_of_nonneg_left r h.κ)
    have f' := mul_le_mul_of_nonneg_left f1 (one_div_pos.2 hl).le
    have p' : D.lam * S.pen (α1 • s + β1 • (s - i)) (α1 • s + β1 • (s - i)) ≤ 0 :=
      mul_nonpos_of_nonneg_of_nonpos hl.le (by linarith)
    refine add_le_add (mul_le_mul_of_nonneg_left ?_ (one_div_pos.2 hd).le) (mul_le_mul_of_nonneg_left ?_ hp.le)
    · linarith
    · linarith
  · exact m1

/-- The time basis reproduces linear functions of time. -/
theorem val_lin {q : ℕ} (hq0 : 1 ≤ q) (hq : q ≤ 3) {dt : ℝ} (hdt : dt ≠ 0) (n : ℕ) (F : ℤ → V) {a b : ℝ} {v : V}
    (hF : ∀ j ≤ q, F (n * (q + 1) + j) = ((1 - (j : ℝ) / q) * a + j / q * b) • v) (t : ℝ) :
    Spec.val q dt n F t = (((n + 1 : ℕ) * dt - t) / dt * a + (t - n * dt) / dt * b) • v ∧
    Spec.valDt q dt n F t = ((b - a) / dt) • v := by
  have e : ∀ j ≤ q, blk q n F j = ((1 - (j : ℝ) / q) * a + j / q * b) • v := fun j hj => hF j hj
  have ht : ((n + 1 : ℕ) * dt - t) / dt = 1 - (t - n * dt) / dt := by push_cast; field_simp; ring
  rw [val_eq, valDt_eq hq, ht]
  unfold comb phiT dphiT
  set s := (t - n * dt) / dt
  have c : ∀ w : ℕ → ℝ, ∑ j ∈ range (q + 1), w j • blk q n F j = (∑ j ∈ range (q + 1), w j * ((1 - (j : ℝ) / q) * a + j / q * b)) • v :=
    fun w => by
      rw [sum_smul]
      exact sum_congr rfl fun j hj => by rw [e j (Nat.lt_succ_iff.1 (mem_range.1 hj)), smul_smul]
  rw [c, c]
  interval_cases q
  · constructor
    · congr 1; simp [sum_range_succ, phi, basisInTime]
    · congr 1; simp [sum_range_succ, dphi, basisInTime]; ring
  · constructor
    · congr 1; simp [sum_range_succ, phi, basisInTime]; ring
    · congr 1; simp [sum_range_succ, dphi, basisInTime]; ring
  · constructor
    · congr 1; simp [sum_range_succ, phi, basisInTime]; ring
    · congr 1; simp [sum_range_succ, dphi, basisInTime]; ring

/-- The discrete function which is linear in time on each slab and agrees with the standing wave of `i` at the ends of the slabs. -/
structure LinTime (D : Disc V) (ω : ℝ) (i : V) (X : Field V) : Prop where
  u1 : ∀ n < D.N, ∀ j ≤ D.q, X 0 (n * (D.q + 1) + j) = ((1 - (j : ℝ) / D.q) * sa ω (n * D.dt) + j / D.q * sa ω ((n + 1 : ℕ) * D.dt)) • i
  u2 : ∀ n < D.N, ∀ j ≤ D.q, X 1 (n * (D.q + 1) + j) = ((1 - (j : ℝ) / D.q) * sb ω (n * D.dt) + j / D.q * sb ω ((n + 1 : ℕ) * D.dt)) • i
  dual1 : ∀ i, X 2 i = 0
  dual2 : ∀ i, X 3 i = 0

/-- It has no jumps. -/
theorem linTime_jump {D : Disc V} (hq : D.q ≤ 3) (hq0 : 1 ≤ D.q) (hdt : 0 < D.dt) {X : Field V} (hX : LinTime D ω i X) {n : ℕ} (hn : n < D.N)
    (h0 : n ≠ 0) : Spec.jump D.q D.dt n (X 0) = 0 ∧ Spec.jump D.q D.dt n (X 1) = 0 := by
  obtain ⟨m, rfl⟩ : ∃ m, n = m + 1 := ⟨n - 1, by omega⟩
  have a1 := (val_lin hq0 hq hdt.ne' _ (X 0) (hX.u1 _ hn) ((m + 1 : ℕ) * D.dt)).1
  have a2 := (val_lin hq0 hq hdt.ne' _ (X 1) (hX.u2 _ hn) ((m + 1 : ℕ) * D.dt)).1
  have b1 := (val_lin hq0 hq hdt.ne' _ (X 0) (hX.u1 m (by omega)) ((m + 1 : ℕ) * D.dt)).1
  have b2 := (val_lin hq0 hq hdt.ne' _ (X 1) (hX.u2 m (by omega)) ((m + 1 : ℕ) * D.dt)).1
  have e1 : (((m + 1 + 1 : ℕ) : ℝ) * D.dt - (m + 1 : ℕ) * D.dt) / D.dt = 1 := by push_cast; field_simp; ring
  have e2 : (((m + 1 : ℕ) : ℝ) * D.dt - m * D.dt) / D.dt = 1 := by push_cast; field_simp; ring
  have e3 : (((m + 1 : ℕ) : ℝ) * D.dt - (m + 1 : ℕ) * D.dt) / D.dt = 0 := by simp
  rw [e1, e3] at a1 a2
  rw [e2, e3] at b1 b2
  unfold Spec.jump
  rw [Nat.add_sub_cancel, a1, a2, b1, b2]
  simp

theorem linTime_initial {D : Disc V} (hN : 0 < D.N) {X : Field V} (hX : LinTime D ω i X) : X 0 0 = sa ω 0 • i := by
  have := hX.u1 0 hN 0 (Nat.zero_le _)
  simpa using this

/-- The errors on one slab. -/
theorem mode_slab {D : Disc V} (hω : 0 < ω) (hq0 : 1 ≤ D.q) (hq : D.q ≤ 3) (hdt : 0 < D.dt) {X : Field V}
    (hX : LinTime D ω i X) {k : ℕ} (hk : k < D.N) {t : ℝ} (ht : t ∈ Set.Icc (k * D.dt) ((k + 1 : ℕ) * D.dt)) :
    ∃ α1 β1 α2 β2 α3 β3 α4 β4, Sizes' ω D.dt α1 β1 α2 β2 α3 β3 α4 β4 ∧
      (standing ω s).u1 t - Spec.val D.q D.dt k (X 0) t = α1 • s + β1 • (s - i) ∧
      (standing ω s).u2 t - Spec.val D.q D.dt k (X 1) t = α2 • s + β2 • (s - i) ∧
      (standing ω s).du1 t - Spec.valDt D.q D.dt k (X 0) t = α3 • s + β3 • (s - i) ∧
      (standing ω s).du2 t - Spec.valDt D.q D.dt k (X 1) t = α4 • s + β4 • (s - i) ∧
      Spec.val D.q D.dt k (X 0) t = β1 • i := by
  obtain ⟨v1, w1⟩ := val_lin hq0 hq hdt.ne' k (X 0) (hX.u1 k hk) t
  obtain ⟨v2, w2⟩ := val_lin hq0 hq hdt.ne' k (X 1) (hX.u2 k hk) t
  have hlen : ((k + 1 : ℕ) : ℝ) * D.dt - k * D.dt = D.dt := by push_cast; ring
  have hlt : (k:ℝ) * D.dt < (k + 1 : ℕ) * D.dt := by linarith
  obtain ⟨s1, s3, s2, s4⟩ := time_interp' hω hlt ht
  rw [hlen] at s1 s2 s3 s4
  have pa : 0 ≤ ((k + 1 : ℕ) * D.dt - t) / D.dt := div_nonneg (sub_nonneg.2 ht.2) hdt.le
  have pb : 0 ≤ (t - k * D.dt) / D.dt := div_nonneg (sub_nonneg.2 ht.1) hdt.le
  have pab : ((k + 1 : ℕ) * D.dt - t) / D.dt + (t - k * D.dt) / D.dt = 1 := by rw [← add_div, sub_add_sub_cancel, hlen, div_self hdt.ne']
  refine ⟨_, ((k + 1 : ℕ) * D.dt - t) / D.dt * sa ω (k * D.dt) + (t - k * D.dt) / D.dt * sa ω ((k + 1 : ℕ) * D.dt), _,
    ((k + 1 : ℕ) * D.dt - t) / D.dt * sb ω (k * D.dt) + (t - k * D.dt) / D.dt * sb ω ((k + 1 : ℕ) * D.dt), _,
    (sa ω ((k + 1 : ℕ) * D.dt) - sa ω (k * D.dt)) / D.dt, _, (sb ω ((k + 1 : ℕ) * D.dt) - sb ω (k * D.dt)) / D.dt,
    ⟨s1, ?_, s2, s3, s4, ?_, ?_, ?_⟩, ?_, ?_, ?_, ?_, v1⟩
  · exact convex_abs pa pb pab (sa_le ω _) (sa_le ω _)
  · rw [abs_div, abs_of_pos hdt, div_le_iff₀ hdt]
    have := Convex.norm_image_sub_le_of_norm_hasDerivWithin_le (f := sb ω) (f' := fun t => -ω ^ 2 * sa ω t) (C := ω ^ 2) (s := Set.univ)
      (x := k * D.dt) (y := (k + 1 : ℕ) * D.dt) (fun t _ => (sb_deriv ω t).hasDerivWithinAt) (fun t _ => sc_le ω t)
      convex_univ (Set.mem_univ _) (Set.mem_univ _)
    rwa [hlen, Real.norm_eq_abs, Real.norm_eq_abs, abs_of_pos hdt] at this
  · rw [sub_add_cancel]; exact sa_le ω t
  · ring
  · rw [v1]; exact sub_mix_aux _ _ _ _
  · rw [v2]; exact sub_mix_aux _ _ _ _
  · rw [w1]; exact sub_mix_aux _ _ _ _
  · rw [w2]; exact sub_mix_aux _ _ _ _

theorem standing_comb (ω : ℝ) (s : V) (I : Set ℝ) :
    CombOn I (standing ω s).u1 ∧ CombOn I (standing ω s).u2 ∧ CombOn I (standing ω s).du1 ∧ CombOn I (standing ω s).du2 := by
  have h1 : Continuous (sa ω) := continuous_iff_continuousAt.2 fun t => (sa_deriv ω t).continuousAt
  have h2 : Continuous (sb ω) := continuous_iff_continuousAt.2 fun t => (sb_deriv ω t).continuousAt
  exact ⟨.smul h1.continuousOn _, .smul h2.continuousOn _, .smul h2.continuousOn _, .smul (continuous_const.mul h1).continuousOn _⟩

theorem standing_integrable (S : Space V) (g : V →ₗ[ℝ] V →ₗ[ℝ] ℝ) (ω : ℝ) (s : V) {D : Disc V} (hq : D.q ≤ 3) (X : Field V) (k : ℕ) :
    IntervalIntegrable (Spec.distDens S D (fun v => g v v) (standing ω s) X k) MeasureTheory.volume (k * D.dt) ((k + 1 : ℕ) * D.dt) := by
  obtain ⟨c1, c2, c3, c4⟩ := standing_comb ω s (Set.uIcc (k * D.dt) ((k + 1 : ℕ) * D.dt))
  have v0 := combOn_val hq D.dt k (Set.uIcc (k * D.dt) ((k + 1 : ℕ) * D.dt)) (X 0)
  have v1 := combOn_val hq D.dt k (Set.uIcc (k * D.dt) ((k + 1 : ℕ) * D.dt)) (X 1)
  exact (errDens_contOn S D g (c1.sub v0.1) (c2.sub v1.1) (c3.sub v0.2) (c4.sub v1.2)).intervalIntegrable

/-- The distance of the wave to its interpolant; `e` is the indicator of any data domain. -/
theorem mode_dist (h : Mode S g ω s i mS mE sS sE fS fE gE κ) {e : V} (he : ∀ v, S.omega e v v ≤ S.mass v v) {D : Disc V} (hP : D.Positive) (hl : 0 < D.lam) (hq0 : 1 ≤ D.q) (hq : D.q ≤ 3)
    (hwp : D.wellPosed = false) (hfw : D.jumpsFw = false) {X : Field V}
    (hX : LinTime D ω i X) {r : QuadRule} (hr : mkQuadRule "Gauss-Radau" 4 = .ok r) {Q : ℕ → (ℝ → ℝ) → ℝ}
    (hQ : ∀ k < D.N, RuleOnSlab r D.dt k (Q k)) :
    Spec.dist S D e (fun v => g v v) Q (standing ω s) X
      ≤ D.N * D.dt * (modeDens D ω mS mE sS sE fS fE gE κ + D.gData * modeErr D ω mS mE) := by
  have hdt := hP.dt
  set E := modeDens D ω mS mE sS sE fS fE gE κ
  set M := modeErr D ω mS mE
  have tot : D.N * D.dt * (E + D.gData * M) = ∑ k ∈ range D.N, (E * D.dt + D.gData * (M * D.dt)) := by
    rw [sum_const, card_range, nsmul_eq_mul]; ring
  rw [tot, Spec.dist]
  refine sum_le_sum fun k hk => ?_
  have hk := mem_range.1 hk
  have len : ((k + 1 : ℕ) : ℝ) * D.dt - k * D.dt = D.dt := by push_cast; ring
  have hle : (k : ℝ) * D.dt ≤ ((k + 1 : ℕ) : ℝ) * D.dt := by linarith
  have i1 : Spec.slabInt D.dt k (Spec.distDens S D (fun v => g v v) (standing ω s) X k) ≤ E * D.dt := by
    have e : E * D.dt = ∫ _ in (k * D.dt)..(((k + 1 : ℕ) : ℝ) * D.dt), E := by
      rw [intervalIntegral.integral_const, len, smul_eq_mul, mul_comm]
    rw [e]
    refine intervalIntegral.integral_mono_on hle (standing_integrable S g ω s hq X k) intervalIntegrable_const fun t ht => ?_
    obtain ⟨α1, β1, α2, β2, α3, β3, α4, β4, z, h1, h2, h3, h4, -⟩ := mode_slab (s := s) h.pos hq0 hq hdt hX hk ht
    have := (mode_dens h hP.dual hl hP.primal z).1
    rw [← h1, ← h2, ← h3, ← h4] at this
    exact this
  have i2 : Q k (fun t => S.omega e ((standing ω s).u1 t - Spec.val D.q D.dt k (X 0) t)
      ((standing ω s).u1 t - Spec.val D.q D.dt k (X 0) t)) ≤ 2 * Q k (fun _ => 0) + M * D.dt := by
    refine ruleOnSlab_le hr hdt (hQ k hk) fun t ht => ?_
    obtain ⟨α1, β1, α2, β2, α3, β3, α4, β4, z, h1, -⟩ := mode_slab (s := s) h.pos hq0 hq hdt hX hk ht
    have := (mode_dens h hP.dual hl hP.primal z).2
    rw [h1]
    linarith [he (α1 • s + β1 • (s - i))]
  have q0 : Q k (fun _ => 0) = 0 := by
    have := ruleOnSlab_mul (hQ k hk) 0 (fun _ => 0)
    simpa using this
  rw [q0, mul_zero, zero_add] at i2
  have i3 : (if k = 0 then
        if D.wellPosed then D.gJump * Spec.jumpForm S D.dt ((standing ω s).u1 0 - Spec.val D.q D.dt 0 (X 0) 0) ((standing ω s).u2 0 - Spec.val D.q D.dt 0 (X 1) 0)
          ((standing ω s).u1 0 - Spec.val D.q D.dt 0 (X 0) 0) ((standing ω s).u2 0 - Spec.val D.q D.dt 0 (X 1) 0) else 0
      else
        D.gJump * Spec.jumpForm S D.dt (Spec.jump D.q D.dt k (X 0)) (Spec.jump D.q D.dt k (X 1))
          (Spec.jump D.q D.dt k (X 0)) (Spec.jump D.q D.dt k (X 1))
        + if D.jumpsFw then (1 + D.eps) ^ 2 / (D.gDual * D.dt) *
            (S.mass (Spec.jump D.q D.dt k (X 0)) (Spec.jump D.q D.dt k (X 0)) + S.mass (Spec.jump D.q D.dt k (X 1)) (Spec.jump D.q D.dt k (X 1)))
          else 0) = 0 := by
    by_cases h0 : k = 0
    · rw [if_pos h0, hwp]; rfl
    · obtain ⟨j1, j2⟩ := linTime_jump hq hq0 hdt hX hk h0
      rw [if_neg h0, j1, j2, hfw]
      simp [Spec.jumpForm]
  rw [i3, add_zero]
  exact add_le_add i1 (mul_le_mul_of_nonneg_left i2 hP.data)

/-- The interpolant of the wave is a discrete function. -/
theorem exists_standing {C : Cfg V} (hC : C.Ok) (hi : i ∈ C.fe.primal) :
    ∃ xs, LinTime C.D ω i (C.full.field C.fe xs) := by
  obtain ⟨v, hv⟩ : ∃ v : ℕ → ℝ, i = ∑ s ∈ range C.fe.mP, v s • C.fe.bP s := by
    have : C.fe.bP '' Set.Iio C.fe.mP = Set.range fun s : Fin C.fe.mP => C.fe.bP s := by
      ext w
      exact ⟨fun ⟨s, hs, e⟩ => ⟨⟨s, hs⟩, e⟩, fun ⟨s, e⟩ => ⟨s, s.2, e⟩⟩
    rw [FE.primal, this, Submodule.mem_span_range_iff_exists_fun] at hi
    obtain ⟨c, hc⟩ := hi
    refine ⟨fun s => if h : s < C.fe.mP then c ⟨s, h⟩ else 0, ?_⟩
    rw [← hc, ← Fin.sum_univ_eq_sum_range (fun s => (if h : s < C.fe.mP then c ⟨s, h⟩ else 0) • C.fe.bP s)]
    exact sum_congr rfl fun s _ => by rw [dif_pos s.2]
  let f : (ℝ → ℝ) → ℕ → ℝ := fun g l => (1 - ((l % (C.D.q + 1) : ℕ) : ℝ) / C.D.q) * g ((l / (C.D.q + 1) : ℕ) * C.D.dt)
    + ((l % (C.D.q + 1) : ℕ) : ℝ) / C.D.q * g ((l / (C.D.q + 1) + 1 : ℕ) * C.D.dt)
  have e : ∀ f : ℝ, f • i = ∑ s ∈ range C.fe.mP, (f * v s) • C.fe.bP s := fun f => by
    rw [hv, smul_sum]
    exact sum_congr rfl fun s _ => smul_smul _ _ _
  obtain ⟨xs, hx⟩ := exists_vec_of_coef hC.full (fun c l s => if c = 0 then f (sa ω) l * v s else if c = 1 then f (sb ω) l * v s else 0)
  have idx : ∀ {n j : ℕ}, n < C.D.N → j ≤ C.D.q → n * (C.D.q + 1) + j < (C.D.q + 1) * C.D.N := fun {n j} hn hj =>
    calc n * (C.D.q + 1) + j < n * (C.D.q + 1) + (C.D.q + 1) := by omega
      _ = (C.D.q + 1) * (n + 1) := by ring
      _ ≤ _ := Nat.mul_le_mul_left _ hn
  have dm : ∀ {n j : ℕ}, j ≤ C.D.q → (n * (C.D.q + 1) + j) / (C.D.q + 1) = n ∧ (n * (C.D.q + 1) + j) % (C.D.q + 1) = j := fun {n j} hj => by
    rw [mul_comm, Nat.mul_add_div (by omega), Nat.mul_add_mod, Nat.div_eq_of_lt (by omega), Nat.mod_eq_of_lt (by omega)]
    simp
  have tn : ∀ n j : ℕ, ((n : ℤ) * ((C.D.q : ℤ) + 1) + (j : ℤ)).toNat = n * (C.D.q + 1) + j := fun n j => by
    have : ((n : ℤ) * ((C.D.q : ℤ) + 1) + (j : ℤ)) = ((n * (C.D.q + 1) + j : ℕ) : ℤ) := by push_cast; ring
    rw [this, Int.toNat_natCast]
  have s0 : C.full.nsub 0 = (C.D.q + 1) * C.D.N := by rw [hC.fullN]; rfl
  have s1 : C.full.nsub 1 = (C.D.q + 1) * C.D.N := by rw [hC.fullN]; rfl
  refine ⟨xs, fun n hn j hj => ?_, fun n hn j hj => ?_, fun i => ?_, fun i => ?_⟩
  · have hi := idx hn hj
    rw [FSpace.field, if_pos ⟨by positivity, by rw [s0]; exact_mod_cast hi⟩, e]
    refine sum_congr rfl fun s hs => ?_
    rw [tn, hx 0 _ s (by rw [s0]; exact hi) (mem_range.1 hs), if_pos rfl]
    dsimp only [f]
    rw [(dm hj).1, (dm hj).2]; rfl
  · have hi := idx hn hj
    rw [FSpace.field, if_pos ⟨by positivity, by rw [s1]; exact_mod_cast hi⟩, e]
    refine sum_congr rfl fun s hs => ?_
    rw [tn, hx 1 _ s (by rw [s1]; exact hi) (mem_range.1 hs), if_neg (by decide), if_pos rfl]
    dsimp only [f]
    rw [(dm hj).1, (dm hj).2]; rfl
  · rw [FSpace.field]
    split
    · rename_i h
      refine sum_eq_zero fun s hs => ?_
      rw [hx 2 _ s (by omega) (mem_range.1 hs), if_neg (by decide), if_neg (by decide), zero_smul]
    · rfl
  · rw [FSpace.field]
    split
    · rename_i h
      refine sum_eq_zero fun s hs => ?_
      rw [hx 3 _ s (by omega) (mem_range.1 hs), if_neg (by decide), if_neg (by decide), zero_smul]
    · rfl

/-- The reported errors of the interpolant. -/
theorem report_standing (h : Mode S g ω s i mS mE sS sE fS fE gE κ) {C : Cfg V} (hC : C.Ok) (hS : C.S = S) (hP : C.D.Positive)
    (hl : 0 < C.D.lam) (hq0 : 1 ≤ C.D.q) (hq : C.D.q ≤ 3) (hsol : C.D.sol = (standing ω s).u1) {xs : Vec}
    (hX : LinTime C.D ω i (C.full.field C.fe xs)) {e : ErrDict} (hs : Report C xs e) :
    e.linfU ≤ √(modeErr C.D ω mS mE) := by
  obtain ⟨k, hk, t, -, hI, eq⟩ := hs.linfU.1
  have hdt := hP.dt
  have ht : t ∈ Set.Icc (k * C.D.dt) ((k + 1 : ℕ) * C.D.dt) := ⟨hI.1, by push_cast; linarith [hI.2]⟩
  obtain ⟨α1, β1, α2, β2, α3, β3, α4, β4, z, h1, -⟩ := mode_slab (s := s) h.pos hq0 hq hdt hX hk ht
  have hb := (mode_dens h hP.dual hl hP.primal z).2
  have hj : k ≠ 0 → nodeJump C.D.q k (C.full.field C.fe xs 0) = 0 := fun h0 => by
    have := (linTime_jump hq hq0 hdt hX hk h0).1
    have hpos : 0 < k := Nat.pos_of_ne_zero h0
    rw [Spec.jump, val_bottom hq, val_top hq hdt.ne' hpos] at this
    rw [← this, nodeJump]
    congr 2
    rw [Nat.cast_sub hpos]; push_cast; ring
  have hr : C.recon xs k t = Spec.val C.D.q C.D.dt k (C.full.field C.fe xs 0) t := by
    rw [recon_eq hC hdt.ne' xs hk]
    split
    · rw [sub_zero]
    · rename_i h0
      rw [hj h0, smul_zero, sub_zero]
  rw [eq, hr, hsol, Space.norm, hS, bilin_sub_swap, h1]
  exact Real.sqrt_le_sqrt hb

/-- The data part of the floor. -/
theorem data_standing (h : Mode S g ω s i mS mE sS sE fS fE gE κ) {e : V} (he : ∀ v, S.omega e v v ≤ S.mass v v) {D : Disc V} (hP : D.Positive) (hq0 : 1 ≤ D.q) (hq : D.q ≤ 3) {X : Field V}
    (hX : LinTime D ω i X) :
    ∑ k ∈ range D.N, D.gData * Spec.slabInt D.dt k (fun t => S.omega e
      (Spec.val D.q D.dt k (X 0) t) (Spec.val D.q D.dt k (X 0) t)) ≤ D.gData * (D.N * D.dt) := by
  have hdt := hP.dt
  have tot : D.gData * (D.N * D.dt) = ∑ k ∈ range D.N, D.gData * D.dt := by
    rw [sum_const, card_range, nsmul_eq_mul]; ring
  rw [tot]
  refine sum_le_sum fun k hk => mul_le_mul_of_nonneg_left ?_ hP.data
  have hk := mem_range.1 hk
  have len : ((k + 1 : ℕ) : ℝ) * D.dt - k * D.dt = D.dt := by push_cast; ring
  have hle : (k : ℝ) * D.dt ≤ ((k + 1 : ℕ) : ℝ) * D.dt := by linarith
  have e1 : D.dt = ∫ _ in (k * D.dt)..(((k + 1 : ℕ) : ℝ) * D.dt), (1:ℝ) := by
    rw [intervalIntegral.integral_const, len, smul_eq_mul, mul_one]
  refine le_of_le_of_eq ?_ e1.symm
  have c := (combOn_val hq D.dt k (Set.uIcc (k * D.dt) ((k + 1 : ℕ) * D.dt)) (X 0)).1
  refine intervalIntegral.integral_mono_on hle (c.bilin _ c).intervalIntegrable intervalIntegrable_const fun t ht => ?_
  obtain ⟨α1, β1, α2, β2, α3, β3, α4, β4, z, -, -, -, -, h5⟩ := mode_slab (s := s) h.pos hq0 hq hdt hX hk ht
  refine (he _).trans ?_
  rw [h5, map_smul, map_smul, LinearMap.smul_apply, smul_eq_mul, smul_eq_mul, ← mul_assoc]
  have h0 := h.psd.mass i
  have h1 := h.massI
  have h2 : β1 * β1 ≤ 1 := by
    rw [← abs_mul_abs_self]
    exact mul_le_one₀ z.b1 (abs_nonneg _) z.b1
  calc β1 * β1 * _ ≤ 1 * S.mass i i := mul_le_mul_of_nonneg_right h2 h0
    _ ≤ 1 := by linarith

end
end Dxss
