import Verif.Lemmas.Dist1
import Verif.Props.OneD

/-!
# Properties C94, C95: the wave equation on an interval

C94: waves on an interval satisfy the discrete equations.  C95: with data everywhere the 1D script reconstructs its wave.
-/

namespace Dxss
open Finset

/-! ## C94 -/

/-- `U` is a wave on the interval of the mesh for times in `T`: its time derivative is `W`, that of `W` is `A`, the wave equation
`∂ₜₜU = ∂ₓₓU` holds and `U` vanishes at both ends. -/
structure Mesh1.Wave (m : Mesh1) (T : Set ℝ) (U W A : ℝ → Ana) : Prop where
  vel : ∀ y, ∀ t ∈ T, HasDerivAt (fun t => (U t).1 y) ((W t).1 y) t
  acc : ∀ y, ∀ t ∈ T, HasDerivAt (fun t => (W t).1 y) ((A t).1 y) t
  wave : ∀ t ∈ T, ∀ y ∈ Set.Icc (m.x 0) (m.x m.n), (A t).1 y = deriv (deriv (U t).1) y
  left : ∀ t ∈ T, (U t).1 (m.x 0) = 0
  right : ∀ t ∈ T, (U t).1 (m.x m.n) = 0

/-- The wave as a path of functions on the mesh. -/
def Mesh1.path (m : Mesh1) (U W A : ℝ → Ana) : Spec.Path m.Broken :=
  ⟨fun t => m.fn (U t), fun t => m.fn (W t), fun t => m.fn (W t), fun t => m.fn (A t)⟩

theorem Mesh1.x_lt (m : Mesh1) : m.x 0 < m.x m.n := by
  have : ∀ k ≤ m.n, 0 < k → m.x 0 < m.x k := by
    intro k hk h0
    induction k with
    | zero => omega
    | succ k ih =>
      have := m.lt k (by omega)
      rcases Nat.eq_zero_or_pos k with rfl | h
      · exact this
      · exact (ih (by omega) h).trans this
  exact this m.n le_rfl m.pos

theorem Mesh1.Wave.eq {m : Mesh1} {T : Set ℝ} {U W A : ℝ → Ana} (h : m.Wave T U W A) {t : ℝ} (ht : t ∈ T) :
    A t = anaDeriv (anaDeriv (U t)) := by
  rw [← sub_eq_zero]
  refine ana_eq_zero m.x_lt ?_
  rw [show (0:ℝ) = ∫ y in (m.x 0)..(m.x m.n), (0:ℝ) by simp]
  refine intervalIntegral.integral_congr fun y hy => ?_
  rw [Set.uIcc_of_le m.x_lt.le] at hy
  have : (A t - anaDeriv (anaDeriv (U t))).1 y = 0 := sub_eq_zero.2 (h.wave t ht y hy)
  simp only [this, mul_zero]

/-- C94: a wave on the interval solves the equations the method is built on, tested with any continuous functions. -/
theorem C94_solution {m : Mesh1} {T : Set ℝ} {U W A : ℝ → Ana} (h : m.Wave T U W A) {Y : Submodule ℝ m.Broken}
    (hY : ∀ y ∈ Y, m.Conforming y) : Spec.WaveSolution m.space Y (m.path U W A) T where
  vel _ _ := rfl
  weak t ht y hy := by
    have := m.green (U t) (hY y hy)
    rw [← h.eq ht] at this
    exact this
  strong t ht y := by
    have e : (m.path U W A).du2 t - m.space.lap ((m.path U W A).u1 t) = 0 := by
      change m.fn (A t) - (fun _ => anaDeriv (anaDeriv (U t))) = 0
      rw [h.eq ht]
      exact sub_self _
    rw [e]; simp
  dirichlet t ht y := by
    have h0 : (m.cell 0 (m.fn (U t))).1 (m.x 0) = 0 := by rw [m.cell_fn m.pos]; exact h.left t ht
    have h1 : (m.cell (m.n - 1) (m.fn (U t))).1 (m.x m.n) = 0 := by
      rw [m.cell_fn (by have := m.pos; omega)]; exact h.right t ht
    change m.space.pen (m.fn (U t)) y = 0
    rw [Mesh1.space_pen, h0, h1]; ring
  smooth t ht y := by
    change m.space.ghost (m.fn (U t)) y = 0
    rw [Mesh1.space_ghost]
    refine sum_eq_zero fun i hi => ?_
    have hi := mem_range.1 hi
    rw [Mesh1.jumpGrad_apply, m.cell_fn (by omega), m.cell_fn (by omega)]
    ring

/-- C94 for the program: let the data be the values of a wave on the interval, and the initial values set on the object those of the
wave.  Then the vector `get_spacetime_rhs` returns, paired with any vector, is the bilinear form of the method at the wave, up to the
quadrature error of the data and the placeholder. -/
theorem C94_consistency {m : Mesh1} {interp : m.Broken →ₗ[ℝ] m.Broken} {a : Args m.Broken} {om om' : DataDomain m.Broken} {B : Built m.Broken}
    (hb : construct interp a om = (.ok B, om')) {C : Cfg m.Broken} (hC : C.Ok) (hB : C.OfBuilt B) (hS : C.S = m.space) (hdt : 0 < C.D.dt)
    (hfe : ∀ y ∈ C.fe.dual, m.Conforming y) {U W A : ℝ → Ana} (h : m.Wave (Set.Icc 0 (C.D.N * C.D.dt)) U W A)
    (hdata : ∀ t, C.D.sol t = m.fn (U t)) {w₀ : World m.Broken} (h₀ : w₀.Fresh) (hf : w₀.NoFail) (ops : List (Op m.Broken))
    (hops : ∀ op ∈ ops, ¬ op.WritesInitial) {r : Ref} {w₁ : World m.Broken}
    (hr : getSpacetimeRhs C (runOps C (.setupFE :: .setInitial (m.fn (U 0)) (m.fn (W 0)) :: ops) w₀) = (.ok r, w₁))
    {Q : ℕ → (ℝ → ℝ) → ℝ} (hQ : ∀ n < C.D.N, RuleOnSlab B.qr C.D.dt n (Q n)) (y : Vec) :
    ∑ d ∈ range C.full.size, w₁.heap r d * y d
      = Spec.pathForm C.S C.D C.D.ind (m.path U W A) (C.full.field C.fe y) + 1e-20 * C.S.mass C.S.one (C.full.field C.fe y 2 0)
        + ∑ n ∈ range C.D.N, C.D.gData *
            (Q n (fun t => C.S.omega C.D.ind (m.fn (U t)) (Spec.val C.D.q C.D.dt n (C.full.field C.fe y 0) t))
              - Spec.slabInt C.D.dt n (fun t => C.S.omega C.D.ind (m.fn (U t)) (Spec.val C.D.q C.D.dt n (C.full.field C.fe y 0) t))) := by
  obtain ⟨hq, -⟩ := construct_qr hb
  have hu : Spec.WaveSolution C.S C.fe.dual (m.path U W A) (Set.Icc 0 (C.D.N * C.D.dt)) := by
    rw [hS]; exact C94_solution h hfe
  rw [C33_initial_data_partial h₀ hf _ _ ops hops hr, rhsVecOf, assembleVec_pair _ _ _ _ hC.full]
  exact C64_consistency C.S C.D hC.disc hdt C.D.ind hu hdata hq hB.pts hB.ws hQ _ (fun i => field_mem_dual _ _ y i)

/-! ## C95 -/

section
variable {n : ℕ} {hn : 0 < n}

theorem p1_conforming (m : Mesh1) : ∀ y ∈ m.p1.dual, m.Conforming y := by
  intro y hy
  refine m.conforming_of_lagrange (k := 1) ((Submodule.span_le.2 ?_ : m.p1.dual ≤ m.lagrange 1) hy)
  rintro _ ⟨s, -, rfl⟩
  exact m.hat_mem s

/-- The sample solution of solve_1d.py is a wave. -/
theorem sol1_wave (T : Set ℝ) : (Mesh1.unit n hn).Wave T (fun t => anaSin (ca t)) (fun t => anaSin (cb t)) (fun t => anaSin (-tau ^ 2 * ca t)) where
  vel y t _ := (ca_deriv t).mul_const _
  acc y t _ := (cb_deriv t).mul_const _
  wave t _ y _ := by
    have := congrFun (congrArg Subtype.val (anaSin_deriv2 (ca t))) y
    change _ = (anaDeriv (anaDeriv (anaSin (ca t)))).1 y
    rw [this]
    change -tau ^ 2 * ca t * _ = -tau ^ 2 * (ca t * _)
    ring
  left t _ := by simp [anaSin, Mesh1.unit]
  right t _ := by
    have : (n:ℝ) ≠ 0 := by exact_mod_cast hn.ne'
    simp [anaSin, Mesh1.unit, div_self this]

theorem wave1_solution (T : Set ℝ) : Spec.WaveSolution (Mesh1.unit n hn).space (Mesh1.unit n hn).p1.dual (wave1 hn) T := by
  have := C94_solution (sol1_wave (hn := hn) T) (p1_conforming _)
  simp only [Mesh1.path, fn_sin] at this
  exact this

/-- The interpolant of the wave is a discrete function. -/
theorem exists_waveI {C : Cfg (Mesh1.unit n hn).Broken} (hC : C.Ok) (hfe : C.fe = (Mesh1.unit n hn).p1) (hq : C.D.q = 1) (hdt : 0 < C.D.dt) :
    ∃ xs, Spec.Interpolates C.D (waveI hn) (C.full.field C.fe xs) := by
  have t0 := tau_bounds.1
  let v : ℕ → ℝ := fun s => (anaSin 1).1 ((Mesh1.unit n hn).x s)
  let c1 : ℕ → ℕ → ℝ → ℝ := fun s k t => (if k = 0 then ca t else if k = 1 then cb t else -tau ^ 2 * ca t) * v s
  let c2 : ℕ → ℕ → ℝ → ℝ := fun s k t => (if k = 0 then cb t else if k = 1 then -tau ^ 2 * ca t else -tau ^ 2 * cb t) * v s
  have hv : ∀ s, |v s| ≤ 1 := fun s => by
    change |1 * Real.sin _| ≤ 1
    rw [one_mul]; exact Real.abs_sin_le_one _
  have e : ∀ f : ℝ, f • sinI hn = ∑ s ∈ range ((Mesh1.unit n hn).n + 1), (f * v s) • (Mesh1.unit n hn).hat s := fun f => by
    rw [sinI, Mesh1.interp, smul_sum]
    exact sum_congr rfl fun s _ => smul_smul _ _ _
  have hsp : Spec.SmoothPath C.fe 1 (C.D.N * C.D.dt) (tau ^ 2 + tau ^ 3) (waveI hn) c1 c2 := by
    rw [hfe]
    refine ⟨fun s _ => ⟨?_, ?_⟩, fun s _ t _ => ⟨?_, ?_⟩, fun t _ => e _, fun t _ => e _, fun t _ => e _, fun t _ => e _⟩
    · intro k hk t _
      rcases k with _ | _ | k
      · exact (ca_deriv t).mul_const _
      · exact (cb_deriv t).mul_const _
      · omega
    · intro k hk t _
      rcases k with _ | _ | k
      · exact (cb_deriv t).mul_const _
      · exact (cc_deriv t).mul_const _
      · omega
    · change |-tau ^ 2 * ca t * v s| ≤ _
      rw [abs_mul, abs_mul, abs_neg, abs_of_pos (show 0 < tau ^ 2 by positivity)]
      have h1 : tau ^ 2 * |ca t| ≤ tau ^ 2 * 1 := mul_le_mul_of_nonneg_left (ca_le t) (by positivity)
      have h2 := mul_le_mul h1 (hv s) (abs_nonneg _) (by positivity)
      have : 0 < tau ^ 3 := by positivity
      linarith
    · change |-tau ^ 2 * cb t * v s| ≤ _
      rw [abs_mul, abs_mul, abs_neg, abs_of_pos (show 0 < tau ^ 2 by positivity)]
      have h1 : tau ^ 2 * |cb t| ≤ tau ^ 2 * tau := mul_le_mul_of_nonneg_left (cb_le t) (by positivity)
      have h2 := mul_le_mul h1 (hv s) (abs_nonneg _) (by positivity)
      have : 0 < tau ^ 2 := by positivity
      nlinarith
  exact exists_interpolant hC hsp hq.ge hdt le_rfl

/-- The reported errors of the interpolant. -/
theorem report_waveI {C : Cfg (Mesh1.unit n hn).Broken} (hC : C.Ok) (hS : C.S = (Mesh1.unit n hn).space) (hD : Data1 hn C.D)
    (hn1 : 100 ≤ n) (hsol : C.D.sol = (wave1 hn).u1) {xs : Vec} (hX : Spec.Interpolates C.D (waveI hn) (C.full.field C.fe xs)) {s : ErrDict}
    (hs : Report C xs s) : s.linfU ≤ √(25 * C.D.dt ^ 4 + 49 * (1 / n) ^ 4) := by
  obtain ⟨k, hk, t, -, hI, e⟩ := hs.linfU.1
  have hdt := hD.dt
  have ht : t ∈ Set.Icc (k * C.D.dt) ((k + 1 : ℕ) * C.D.dt) := ⟨hI.1, by push_cast; linarith [hI.2]⟩
  obtain ⟨α1, β1, α2, β2, α3, β3, α4, β4, z, h1, -⟩ := slab_errors hn hD.q hdt hX hk ht
  have hb := (dens_le hn hD.lam hD.primal hD.dual hdt hD.dt_le hn1 z).2
  have hj : k ≠ 0 → nodeJump C.D.q k (C.full.field C.fe xs 0) = 0 := fun h0 => by
    have := (interpolant_jump (by rw [hD.q]; norm_num) hD.q.ge hdt hX hk h0).1
    have hpos : 0 < k := Nat.pos_of_ne_zero h0
    rw [Spec.jump, val_bottom (by rw [hD.q]; norm_num), val_top (by rw [hD.q]; norm_num) hdt.ne' hpos] at this
    rw [← this, nodeJump]
    congr 2
    rw [Nat.cast_sub hpos]; push_cast; ring
  have hr : C.recon xs k t = Spec.val C.D.q C.D.dt k (C.full.field C.fe xs 0) t := by
    rw [recon_eq hC hdt.ne' xs hk]
    split
    · rw [sub_zero]
    · rename_i h0
      rw [hj h0, smul_zero, sub_zero]
  rw [e, hr, hsol, Space.norm, hS, bilin_sub_swap, h1]
  exact Real.sqrt_le_sqrt hb

/-- The data part of the floor. -/
theorem data_waveI {D : Disc (Mesh1.unit n hn).Broken} (hD : Data1 hn D) {X : Field (Mesh1.unit n hn).Broken}
    (hX : Spec.Interpolates D (waveI hn) X) :
    ∑ k ∈ range D.N, D.gData * Spec.slabInt D.dt k (fun t => (Mesh1.unit n hn).space.omega (Mesh1.unit n hn).space.one
      (Spec.val D.q D.dt k (X 0) t) (Spec.val D.q D.dt k (X 0) t)) ≤ 1e4 := by
  have hdt := hD.dt
  have tot : (1e4:ℝ) = ∑ k ∈ range D.N, 1e4 * D.dt := by
    rw [sum_const, card_range, nsmul_eq_mul, mul_left_comm, hD.T, mul_one]
  rw [tot, hD.data]
  refine sum_le_sum fun k hk => mul_le_mul_of_nonneg_left ?_ (by norm_num)
  have hk := mem_range.1 hk
  have len : ((k + 1 : ℕ) : ℝ) * D.dt - k * D.dt = D.dt := by push_cast; ring
  have hle : (k : ℝ) * D.dt ≤ ((k + 1 : ℕ) : ℝ) * D.dt := by linarith
  have e : D.dt = ∫ _ in (k * D.dt)..(((k + 1 : ℕ) : ℝ) * D.dt), (1:ℝ) := by
    rw [intervalIntegral.integral_const, len, smul_eq_mul, mul_one]
  refine le_of_le_of_eq ?_ e.symm
  have hq : D.q ≤ 3 := by rw [hD.q]; norm_num
  have c := (combOn_val hq D.dt k (Set.uIcc (k * D.dt) ((k + 1 : ℕ) * D.dt)) (X 0)).1
  refine intervalIntegral.integral_mono_on hle (c.bilin _ c).intervalIntegrable intervalIntegrable_const fun t ht => ?_
  obtain ⟨α1, β1, α2, β2, α3, β3, α4, β4, z, -, -, -, -, h5⟩ := slab_errors hn hD.q hdt hX hk ht
  rw [omega_one1, h5, map_smul, map_smul, LinearMap.smul_apply, smul_eq_mul, smul_eq_mul, ← mul_assoc]
  have h0 := (unit_psd hn).mass (sinI hn)
  have h1 := mass_sinI hn
  have h2 : β1 * β1 ≤ 1 := by
    rw [← abs_mul_abs_self]
    exact mul_le_one₀ z.b1 (abs_nonneg _) z.b1
  calc β1 * β1 * _ ≤ 1 * (Mesh1.unit n hn).space.mass (sinI hn) (sinI hn) := mul_le_mul_of_nonneg_right h2 h0
    _ ≤ 1 := by linarith

variable {N : ℤ} {interp : (Mesh1.unit n hn).Broken →ₗ[ℝ] (Mesh1.unit n hn).Broken}
  {om' : DataDomain (Mesh1.unit n hn).Broken} {B : Built (Mesh1.unit n hn).Broken} {C : Cfg (Mesh1.unit n hn).Broken}

/-- C95: solve_1d.py with `N` time slabs on a mesh with `n ≥ N` cells, with data on the whole interval and a data domain which is
not fitted to the mesh (so that its indicator is not lost, C35).  If a vector solves the linear system, the error `measured_errors`
reports for the displacement, at the final time and over time, is at most `√(2000/N + N/10⁶) + 9/N²`. -/
theorem C95_error (hb : construct interp { Script.d1.args (Mesh1.unit n hn).sol1 (Mesh1.unit n hn).dsol1 with N := N }
      ⟨(Mesh1.unit n hn).space.one, false⟩ = (.ok B, om')) (hN : 100 ≤ N) (hNn : N ≤ n) (hsize : (N : ℝ) ≤ 1e15) (hC : C.Ok) (hB : C.OfBuilt B)
    (hS : C.S = (Mesh1.unit n hn).space) (hfe : C.fe = (Mesh1.unit n hn).p1)
    {w₀ : World (Mesh1.unit n hn).Broken} (h₀ : w₀.Fresh) {r : Ref} {w₁ : World (Mesh1.unit n hn).Broken}
    (h : scriptSetup C w₀ = (.ok r, w₁)) {A : Mat} (hA : C.Returns false A)
    {z₀ : World (Mesh1.unit n hn).Broken} (hz : z₀.Fresh) (ops : List (Op (Mesh1.unit n hn).Broken)) (x : InVec)
    (hx : ∀ d < A.size, A.mult ((runOps C ops z₀).heap x.ref) d = w₁.heap r d)
    {rep : ErrDict} {z₁ : World (Mesh1.unit n hn).Broken} (hrep : measuredErrors C x.ref (runOps C ops z₀) = (.ok rep, z₁)) :
    rep.l2T ≤ √(2000 / N + 1e-6 * N) + 9 / N ^ 2 ∧ rep.linfU ≤ √(2000 / N + 1e-6 * N) + 9 / N ^ 2 := by
  have hD1 : OneDData C N := oneD_data hb (by omega) hB
  obtain ⟨b, -, eB⟩ := construct_facts hb
  have hNR : (100:ℝ) ≤ N := by exact_mod_cast hN
  have hN0 : (0:ℝ) < N := by linarith
  have hNnR : (N:ℝ) ≤ n := by exact_mod_cast hNn
  have hn1 : 100 ≤ n := by omega
  have hDN : (C.D.N : ℝ) = N := by
    rw [hD1.N]
    exact_mod_cast Int.toNat_of_nonneg (by omega : 0 ≤ N)
  have hind : C.D.ind = (Mesh1.unit n hn).space.one := by rw [hB.D, eB]; simp [builtOf]
  have hsol : C.D.sol = (wave1 hn).u1 := by
    rw [hB.D, eB]
    funext t
    exact fn_sin hn (ca t)
  have hD : Data1 hn C.D := by
    refine ⟨hD1.q, hD1.lam, hD1.primal, hD1.dual, by rw [hB.D, eB]; rfl, hD1.wp, hD1.fw, ?_, hD1.pos.dt, ?_⟩
    · rw [hDN, hD1.dt]; field_simp
    · rw [hD1.dt]; exact one_div_le_one_div_of_le (by norm_num) hNR
  have hPsd : C.S.Psd C.D.ind := by rw [hS, hind]; exact unit_psd hn
  have hdef : C.S.Definite := hS ▸ (Mesh1.unit n hn).space_definite
  have hNpos : 0 < C.D.N := by rw [hD1.N]; omega
  have hMe : C.Meas := Meas.of_construct hb (show 0 < N by omega) (by norm_num [Script.args, Script.T])
    ⟨hB.D, hB.T, hB.dsol, hB.samples, hB.ptsHo, hB.wsHo⟩
  have hdet : C.Determined 1e-4 := by
    intro u _
    have p := hPsd.pen u; have g := hPsd.ghost u
    have e : C.S.omega C.D.ind u u = C.S.mass u u := by rw [hS, hind, omega_one1]
    have hp := hD1.pos.primal; have hl := hD1.pos.lam
    have : 0 ≤ C.D.gPrimal * (C.D.lam * C.S.pen u u + C.S.ghost u u) := by positivity
    rw [e, hD.data]
    norm_num
    linarith
  obtain ⟨xs, hX⟩ := exists_waveI hC hfe hD.q hD.dt
  -- the right-hand side does not depend on initial values
  obtain ⟨w₂, hw₂⟩ := Example.getRhs_after C (fun _ => 0) ((wave1 hn).u1 0) ((wave1 hn).u2 0) []
  have hheap : w₂.heap .rhs = w₁.heap r := by
    rw [C33_not_well_posed_partial (u := 0) (v := 0) hD.wp (Example.freshWorld_fresh _) _ hw₂,
      C33_not_well_posed_partial (u := 0) (v := 0) hD.wp h₀ _ (scriptSetup_getRhs h)]
  have hu : Spec.WaveSolution C.S C.fe.dual (wave1 hn) (Set.Icc 0 (C.D.N * C.D.dt)) := by
    rw [hS, hfe]; exact wave1_solution _
  choose Q hQ using fun k => exists_ruleOnSlab (construct_qr hb).1 C.D.dt k
  obtain ⟨v₀, opsA, v₁, g₀, hopsA, hA'⟩ := id hA
  have hAs : A.size = C.full.size := by rw [hA.eq]; rfl
  have hK : (1e-4 : ℝ) * ((C.D.q + 1) ^ 2 / C.D.dt) * ((1e-20) ^ 2 * (C.D.qstar + 1) ^ 2) ≤ 1e-2 * (C.D.gDual * C.D.dt) := by
    rw [hD.q, hD1.qstar, hD.dual, hD1.dt]
    rw [one_mul, mul_one_div, le_div_iff₀ hN0]
    have : (N:ℝ) * N ≤ 1e15 * 1e15 := mul_le_mul hsize hsize hN0.le (by norm_num)
    norm_num at this ⊢
    linarith
  have hE := C71_error_estimate hb hC hB hPsd hD1.pos (by rw [hD.lam]; norm_num) hNpos
    (C68_full_data_observe hC hPsd hdef hD1.pos (by norm_num) hdet hNpos) hK (G := fun v => (Mesh1.unit n hn).flux v v)
    (Mesh1.unit n hn).flux_nonneg (by rw [hS]; exact (Mesh1.unit n hn).flux_bound) hu (fun t => congrFun hsol t) (Example.freshWorld_fresh _)
    (Example.freshWorld_noFail _) [] opsA (by simp) hw₂ g₀ hopsA hA' (fun k _ => hQ k) ((runOps C ops z₀).heap x.ref) xs
    (fun d hd => by rw [hheap]; exact hx d (hAs ▸ hd)) hX.dual1 hX.dual2 (fun k _ => by rw [hS]; exact wave1_integrable hn hD _ k)
  have d1 := wave1_dist hn hD hn1 hX (construct_qr hb).1 (fun k _ => hQ k)
  have d2 := data_waveI hD hX
  have d3 : C.S.mass (C.S.one - C.full.field C.fe xs 0 0) (C.S.one - C.full.field C.fe xs 0 0) ≤ 4 := by
    have e : C.full.field C.fe xs 0 0 = (1:ℝ) • sinI hn := by
      rw [(interpolant_initial (by rw [hD.q]; norm_num) hNpos hX).1]
      change ca 0 • sinI hn = _
      simp [ca]
    have hone : C.S.mass C.S.one C.S.one = 1 := by
      rw [hS]
      refine ((Mesh1.unit n hn).mass_fn _ _).trans ?_
      have e := unit_length hn
      simp [e]
    rw [e]
    refine (sub_smul_le _ hPsd.mass _ _ _).trans ?_
    have := mass_sinI hn
    rw [hone, hS]
    linarith
  rw [← hind, ← hS] at d1 d2
  have hE' : Spec.energy C.S C.D C.D.ind (C.full.field C.fe ((runOps C ops z₀).heap x.ref) - C.full.field C.fe xs)
      ≤ 50622 * (1 / N) ^ 2 + 2.401e-5 := by
    refine hE.trans ?_
    have hh : (1 / (n:ℝ)) ^ 2 ≤ (1 / N) ^ 2 := pow_le_pow_left₀ (by positivity) (one_div_le_one_div_of_le hN0 hNnR) 2
    rw [hD1.dt] at d1
    have t1 : (1e-20) ^ 2 * ((C.D.qstar:ℝ) + 1) ^ 2 / (C.D.gDual * C.D.dt) * C.S.mass (C.S.one - C.full.field C.fe xs 0 0) (C.S.one - C.full.field C.fe xs 0 0)
        ≤ 1.6e-24 := by
      rw [hD1.qstar, hD.dual, hD1.dt]
      have e : (1e-20) ^ 2 * (((1:ℕ):ℝ) + 1) ^ 2 / (1 * (1 / (N:ℝ))) = 4e-40 * N := by field_simp; norm_num
      rw [e]
      calc 4e-40 * (N:ℝ) * _ ≤ 4e-40 * 1e15 * 4 := mul_le_mul (mul_le_mul_of_nonneg_left hsize (by norm_num)) d3 (hPsd.mass _) (by norm_num)
        _ = _ := by norm_num
    have t2 : (2e-5 : ℝ) ^ 2 * (∑ k ∈ range C.D.N, C.D.gData * Spec.slabInt C.D.dt k (fun t => C.S.omega C.D.ind
        (Spec.val C.D.q C.D.dt k (C.full.field C.fe xs 0) t) (Spec.val C.D.q C.D.dt k (C.full.field C.fe xs 0) t))) ≤ (2e-5) ^ 2 * 1e4 :=
      mul_le_mul_of_nonneg_left d2 (by norm_num)
    norm_num at t1 t2 d1 hh ⊢
    linarith
  obtain ⟨s, z₂, hs⟩ := C42_returns hMe hPsd.mass (Example.freshWorld_fresh fun _ => 0) (Example.freshWorld_noFail _) [.write 1 xs] (.user 1)
  have hs' := C42_any_history hMe hPsd.mass (Example.freshWorld_fresh _) _ (.user 1) hs
  rw [show (runOps C [.setupFE, .write 1 xs] (Example.freshWorld fun _ => 0)).heap (InVec.user 1).ref = xs from
    runOps_write C [.setupFE] 1 xs (Example.freshWorld fun _ => 0)] at hs'
  have hR := C42_any_history hMe hPsd.mass hz ops x hrep
  obtain ⟨-, k2, -⟩ := report_diff hC hPsd hD1.pos (by norm_num) hdet hE' hMe hR hs'
  have k3 := report_waveI hC hS hD hn1 hsol hX hs'
  have k4 := C42_final_le_max hMe hR
  have b1 : √(24 * ((C.D.q:ℝ) + 1) ^ 4 * 1e-4 / C.D.dt * (50622 * (1 / N) ^ 2 + 2.401e-5)) ≤ √(2000 / N + 1e-6 * N) := by
    refine Real.sqrt_le_sqrt ?_
    rw [hD.q, hD1.dt]
    have e : 24 * (((1:ℕ):ℝ) + 1) ^ 4 * 1e-4 / (1 / (N:ℝ)) * (50622 * (1 / N) ^ 2 + 2.401e-5) = 1943.8848 * (1 / N) + 9.21984e-7 * N := by
      field_simp; norm_num; ring
    rw [e]
    have : 0 < 1 / (N:ℝ) := by positivity
    have e2 : 2000 / (N:ℝ) = 2000 * (1 / N) := by ring
    rw [e2]
    have : 1943.8848 * (1 / (N:ℝ)) ≤ 2000 * (1 / N) := mul_le_mul_of_nonneg_right (by norm_num) this.le
    have : (9.21984e-7:ℝ) * N ≤ 1e-6 * N := mul_le_mul_of_nonneg_right (by norm_num) hN0.le
    linarith
  have b2 : √(25 * C.D.dt ^ 4 + 49 * (1 / (n:ℝ)) ^ 4) ≤ 9 / N ^ 2 := by
    have hh : (1 / (n:ℝ)) ^ 4 ≤ (1 / N) ^ 4 := pow_le_pow_left₀ (by positivity) (one_div_le_one_div_of_le hN0 hNnR) 4
    rw [Real.sqrt_le_left (by positivity), hD1.dt]
    have e : (9 / (N:ℝ) ^ 2) ^ 2 = 81 * (1 / N) ^ 4 := by ring
    have : 0 < (1 / (N:ℝ)) ^ 4 := by positivity
    rw [e]
    linarith
  have key : rep.linfU ≤ √(2000 / N + 1e-6 * N) + 9 / N ^ 2 := by
    have := (abs_le.1 (k2.trans b1)).2
    linarith [k3.trans b2]
  exact ⟨k4.trans key, key⟩

/-- C95: consequently, for `20000 ≤ N ≤ 100000` slabs the error at the final time is at most half of the norm of the wave — what C93
states, and what fails, for the script as it is. -/
theorem C95_half (hb : construct interp { Script.d1.args (Mesh1.unit n hn).sol1 (Mesh1.unit n hn).dsol1 with N := N }
      ⟨(Mesh1.unit n hn).space.one, false⟩ = (.ok B, om')) (hN : 20000 ≤ N) (hN' : N ≤ 100000) (hNn : N ≤ n) (hC : C.Ok) (hB : C.OfBuilt B)
    (hS : C.S = (Mesh1.unit n hn).space) (hfe : C.fe = (Mesh1.unit n hn).p1)
    {w₀ : World (Mesh1.unit n hn).Broken} (h₀ : w₀.Fresh) {r : Ref} {w₁ : World (Mesh1.unit n hn).Broken}
    (h : scriptSetup C w₀ = (.ok r, w₁)) {A : Mat} (hA : C.Returns false A)
    {z₀ : World (Mesh1.unit n hn).Broken} (hz : z₀.Fresh) (ops : List (Op (Mesh1.unit n hn).Broken)) (x : InVec)
    (hx : ∀ d < A.size, A.mult ((runOps C ops z₀).heap x.ref) d = w₁.heap r d)
    {rep : ErrDict} {z₁ : World (Mesh1.unit n hn).Broken} (hrep : measuredErrors C x.ref (runOps C ops z₀) = (.ok rep, z₁)) :
    rep.l2T ≤ 1 / 2 * C.S.norm (C.D.sol C.T) := by
  have h1 : (20000:ℝ) ≤ N := by exact_mod_cast hN
  have h2 : (N:ℝ) ≤ 100000 := by exact_mod_cast hN'
  have h0 : (0:ℝ) < N := by linarith
  refine (C95_error hb (by omega) hNn (h2.trans (by norm_num)) hC hB hS hfe h₀ h hA hz ops x hx hrep).1.trans ?_
  obtain ⟨b, -, e⟩ := construct_facts hb
  have e1 : C.D.sol = (Mesh1.unit n hn).sol1 := by rw [hB.D, e]; rfl
  have e2 : C.T = 1 := by rw [hB.T, e]; simp [builtOf, Script.args, Script.T]
  have e3 : C.S.norm (C.D.sol C.T) = √(1 / 2) := by
    rw [hS, e1, e2, ← norm_zero_sub, unit_norm_sol]
    simp
  rw [e3]
  have a1 : √(2000 / N + 1e-6 * N) ≤ 0.347 := by
    rw [Real.sqrt_le_left (by norm_num)]
    have : 2000 / (N:ℝ) + 1e-6 * N ≤ 0.12 := by
      rw [div_add' _ _ _ h0.ne', div_le_iff₀ h0]
      nlinarith
    refine this.trans (by norm_num)
  have a2 : 9 / (N:ℝ) ^ 2 ≤ 0.001 := by
    rw [div_le_iff₀ (by positivity)]
    nlinarith
  have a3 : (0.7:ℝ) ≤ √(1 / 2) := Real.le_sqrt_of_sq_le (by norm_num)
  norm_num at a1 a2 a3 ⊢
  linarith

end

namespace Example
open Mesh1

section
variable {n : ℕ} {hn : 0 < n}

/-- The 1D script with `n` cells and `N` slabs. -/
noncomputable def cfgN (N : ℤ) (B : Built (Mesh1.unit n hn).Broken) : Cfg (Mesh1.unit n hn).Broken where
  S := (Mesh1.unit n hn).space
  D := B.D
  fe := (Mesh1.unit n hn).p1
  full := stdSpace (fullSizes 1 1 N.toNat) (Mesh1.unit n hn).p1.m
  slab := stdSpace (slabSizes 1 1) (Mesh1.unit n hn).p1.m
  coup := stdSpace couplingSizes (Mesh1.unit n hn).p1.m
  bnd := stdSpace bndSizes (Mesh1.unit n hn).p1.m
  pts := [-1, -0.575319, 0.181066, 0.822824].map fun pt : ℝ => 0.5 * (1 - 0) * pt + 0.5 * (1 + 0)
  ws := [0.125, 0.657689, 0.776387, 0.440924].map fun w : ℝ => 0.5 * 1 * w
  T := B.T
  dsol := B.dsol
  ptsHo := [-1, -0.72048, -0.167181, 0.446314, 0.885792].map fun pt : ℝ => 0.5 * (1 - 0) * pt + 0.5 * (1 + 0)
  wsHo := [0.08, 0.446208, 0.623653, 0.562712, 0.287427].map fun w : ℝ => 0.5 * 1 * w
  samples := B.samples

theorem builtN {N : ℤ} (hN : 0 < N) (ind : (Mesh1.unit n hn).Broken) : ∃ B om', construct LinearMap.id
      { Script.d1.args (Mesh1.unit n hn).sol1 (Mesh1.unit n hn).dsol1 with N := N } ⟨ind, false⟩ = (.ok B, om') ∧
    (cfgN N B).Ok ∧ (cfgN N B).OfBuilt B := by
  obtain ⟨b, -, e⟩ := construct_run (interp := LinearMap.id)
    (a := { Script.d1.args (Mesh1.unit n hn).sol1 (Mesh1.unit n hn).dsol1 with N := N }) (om := ⟨ind, false⟩) hN.ne'
    (Script.d1.supported (Mesh1.unit n hn).sol1 (Mesh1.unit n hn).dsol1)
  have hdt : (builtOf LinearMap.id { Script.d1.args (Mesh1.unit n hn).sol1 (Mesh1.unit n hn).dsol1 with N := N } ⟨ind, false⟩ b).D.dt = 1 / N := by
    simp [builtOf, Script.args, Script.T]
  have hNR : (N:ℝ) ≠ 0 := by exact_mod_cast hN.ne'
  refine ⟨_, _, e, ?_, ?_⟩
  · refine ⟨⟨getElmatTime_ok ?_ ?_, ?_⟩, stdSpace_ok _ _, rfl, stdSpace_ok _ _, rfl, stdSpace_ok _ _, rfl,
      stdSpace_ok _ _, rfl⟩
    · simp [cfgN, builtOf, Script.args, Script.otime, Script.order]
    · simp [cfgN, builtOf, Script.args, Script.otime, Script.order]
    · change _ ≠ _; rw [cfgN, hdt]; exact one_div_ne_zero hNR
  · constructor <;> simp [cfgN, builtOf, QuadRule.currentPts, QuadRule.tWeights, gaussRadau]

/-- The system of C95 has exactly one solution, and `measured_errors` returns for it. -/
theorem solveN {N : ℤ} (hN : 0 < N) (hsize : (n : ℝ) * N ≤ 1e16) : ∃ B om', construct LinearMap.id
      { Script.d1.args (Mesh1.unit n hn).sol1 (Mesh1.unit n hn).dsol1 with N := N } ⟨(Mesh1.unit n hn).space.one, false⟩ = (.ok B, om') ∧
    (cfgN N B).Ok ∧ (cfgN N B).OfBuilt B ∧
    ∀ heap, ∃ w₁ A x ops, scriptSetup (cfgN N B) (freshWorld heap) = (.ok .rhs, w₁) ∧ (cfgN N B).Returns false A ∧
      (∀ d < A.size, A.mult x d = w₁.heap .rhs d) ∧ A.UniquelySolvable ∧ (runOps (cfgN N B) ops (freshWorld heap)).heap (.user 1) = x ∧
      ∃ rep z₁, measuredErrors (cfgN N B) (.user 1) (runOps (cfgN N B) ops (freshWorld heap)) = (.ok rep, z₁) := by
  obtain ⟨B, om', hb, hC, hB⟩ := builtN (n := n) (hn := hn) hN (Mesh1.unit n hn).space.one
  refine ⟨B, om', hb, hC, hB, fun heap => ?_⟩
  obtain ⟨w₁, h, -⟩ := scriptSetup_run (C := cfgN N B) (freshWorld_fresh heap) (freshWorld_noFail _)
  obtain ⟨v₀, ops, v₁, g₀, hops, hA'⟩ := returns (cfgN N B) false
  have hind : (cfgN N B).D.ind = (Mesh1.unit n hn).space.one := by
    obtain ⟨b, -, e⟩ := construct_facts hb
    rw [hB.D, e]
    simp [builtOf]
  have hU := (C92_solve_1d (C := cfgN N B) hb hN hsize hC hB rfl
    (fun i hi y _ => by rw [hind, (Mesh1.unit n hn).cell_apply hi]; exact zero_le_one) (p1_primal _) (p1_indep _) g₀ ops hops hA').2
  obtain ⟨x, hx, -⟩ := hU (w₁.heap .rhs)
  have hz : (runOps (cfgN N B) [.setupFE, .write 1 x] (freshWorld heap)).heap (.user 1) = x :=
    runOps_write (cfgN N B) [.setupFE] 1 x (freshWorld heap)
  have hMe : (cfgN N B).Meas := Meas.of_construct hb hN (by norm_num [Script.args, Script.T])
    ⟨hB.D, hB.T, hB.dsol, hB.samples, hB.ptsHo, hB.wsHo⟩
  obtain ⟨rep, z₁, hr⟩ := C42_returns hMe (unit_psd hn).mass (freshWorld_fresh heap) (freshWorld_noFail heap) [.write 1 x] (.user 1)
  exact ⟨w₁, _, x, _, h, ⟨v₀, ops, v₁, g₀, hops, hA'⟩, hx, hU, hz, rep, z₁, hr⟩

/-- C94 for the sample solution of the 1D script and arbitrary numbers of cells and slabs. -/
example {N : ℤ} (hN : 0 < N) (heap : Ref → Vec) : ∃ B om', construct LinearMap.id
      { Script.d1.args (Mesh1.unit n hn).sol1 (Mesh1.unit n hn).dsol1 with N := N } ⟨(Mesh1.unit n hn).space.one, false⟩ = (.ok B, om') ∧
    ∃ (w₁ : World (Mesh1.unit n hn).Broken) (Q : ℕ → (ℝ → ℝ) → ℝ), getSpacetimeRhs (cfgN N B) (runOps (cfgN N B) (.setupFE :: .setInitial ((Mesh1.unit n hn).fn (anaSin (ca 0)))
        ((Mesh1.unit n hn).fn (anaSin (cb 0))) :: [.prepare]) (freshWorld heap)) = (.ok .rhs, w₁) ∧
      ∀ y : Vec, ∑ d ∈ range (cfgN N B).full.size, w₁.heap .rhs d * y d
        = Spec.pathForm (Mesh1.unit n hn).space B.D B.D.ind ((Mesh1.unit n hn).path (fun t => anaSin (ca t)) (fun t => anaSin (cb t))
            (fun t => anaSin (-tau ^ 2 * ca t))) ((cfgN N B).full.field (Mesh1.unit n hn).p1 y)
          + 1e-20 * (Mesh1.unit n hn).space.mass (Mesh1.unit n hn).space.one ((cfgN N B).full.field (Mesh1.unit n hn).p1 y 2 0)
          + ∑ k ∈ range B.D.N, B.D.gData * (Q k (fun t => (Mesh1.unit n hn).space.omega B.D.ind ((Mesh1.unit n hn).fn (anaSin (ca t)))
              (Spec.val B.D.q B.D.dt k ((cfgN N B).full.field (Mesh1.unit n hn).p1 y 0) t))
            - Spec.slabInt B.D.dt k (fun t => (Mesh1.unit n hn).space.omega B.D.ind ((Mesh1.unit n hn).fn (anaSin (ca t)))
              (Spec.val B.D.q B.D.dt k ((cfgN N B).full.field (Mesh1.unit n hn).p1 y 0) t))) := by
  obtain ⟨B, om', hb, hC, hB⟩ := builtN (n := n) (hn := hn) hN (Mesh1.unit n hn).space.one
  refine ⟨B, om', hb, ?_⟩
  obtain ⟨w₁, h⟩ := getRhs_after (cfgN N B) heap ((Mesh1.unit n hn).fn (anaSin (ca 0))) ((Mesh1.unit n hn).fn (anaSin (cb 0))) [.prepare]
  choose Q hQ using fun k => exists_ruleOnSlab (construct_qr hb).1 B.D.dt k
  refine ⟨w₁, Q, h, fun y => ?_⟩
  exact C94_consistency (C := cfgN N B) hb hC hB rfl (oneD_data hb hN hB).pos.dt (p1_conforming _) (sol1_wave _)
    (by obtain ⟨b, -, e⟩ := construct_facts hb
        intro t; rw [hB.D, e]; rfl)
    (freshWorld_fresh heap) (freshWorld_noFail heap) [.prepare] (by simp [Op.WritesInitial]) h (fun k _ => hQ k) y

end

/-- C95 for 20000 cells and slabs. -/
theorem solve20000 (n : ℕ) (hn : 0 < n) (e : n = 20000) : ∃ B om', construct LinearMap.id
      { Script.d1.args (Mesh1.unit n hn).sol1 (Mesh1.unit n hn).dsol1 with N := 20000 } ⟨(Mesh1.unit n hn).space.one, false⟩ = (.ok B, om') ∧
    ∃ w₁ A x ops rep z₁, scriptSetup (cfgN 20000 B) (freshWorld fun _ => 0) = (.ok .rhs, w₁) ∧ (cfgN 20000 B).Returns false A ∧
      (∀ d < A.size, A.mult x d = w₁.heap .rhs d) ∧ A.UniquelySolvable ∧
      (runOps (cfgN 20000 B) ops (freshWorld fun _ => 0)).heap (.user 1) = x ∧
      measuredErrors (cfgN 20000 B) (.user 1) (runOps (cfgN 20000 B) ops (freshWorld fun _ => 0)) = (.ok rep, z₁) ∧
      rep.l2T ≤ 1 / 2 * (cfgN 20000 B).S.norm ((cfgN 20000 B).D.sol (cfgN 20000 B).T) ∧ rep.linfU ≤ 0.35 := by
  have hnR : (n:ℝ) = 20000 := by exact_mod_cast e
  obtain ⟨B, om', hb, hC, hB, h⟩ := solveN (n := n) (hn := hn) (N := 20000) (by norm_num) (by rw [hnR]; norm_num)
  refine ⟨B, om', hb, ?_⟩
  obtain ⟨w₁, A, x, ops, h1, h2, h3, h4, h5, rep, z₁, h6⟩ := h fun _ => 0
  have hN : (20000:ℤ) ≤ n := by omega
  have hx : ∀ d < A.size, A.mult ((runOps (cfgN 20000 B) ops (freshWorld fun _ => 0)).heap (InVec.user 1).ref) d = w₁.heap .rhs d := by
    intro d hd
    rw [show (runOps (cfgN 20000 B) ops (freshWorld fun _ => 0)).heap (InVec.user 1).ref = x from h5]
    exact h3 d hd
  refine ⟨w₁, A, x, ops, rep, z₁, h1, h2, h3, h4, h5, h6, ?_, ?_⟩
  · exact C95_half hb le_rfl (by norm_num) hN hC hB rfl rfl (freshWorld_fresh _) h1 h2 (freshWorld_fresh _) ops (.user 1) hx h6
  · refine (C95_error hb (by norm_num) hN (by norm_num) hC hB rfl rfl (freshWorld_fresh _) h1 h2 (freshWorld_fresh _) ops (.user 1) hx h6).2.trans ?_
    have : √(2000 / ((20000:ℤ):ℝ) + 1e-6 * ((20000:ℤ):ℝ)) ≤ 0.3465 := by
      rw [Real.sqrt_le_left (by norm_num)]; norm_num
    norm_num at this ⊢
    linarith

end Example
end Dxss
