import Verif.Lemmas.TriElliptic
import Verif.Props.Wave3

/-!
# Property C109: the wave equation on a triangulated domain

Waves on a triangulated domain in the plane satisfy the discrete equations; this is the case of solve_2d.py.
-/

namespace Dxss
open Finset MeasureTheory

namespace Tri
variable (m : Tri)

/-- The domain: the union of the triangles. -/
def InDomain (x : Fin 2 → ℝ) : Prop :=
  ∃ K, ∃ s t : ℝ, 0 ≤ s ∧ 0 ≤ t ∧ s + t ≤ 1 ∧ x = refPt (m.v K 0) (m.v K 1) (m.v K 2) s t

/-- The boundary of the domain: the union of the edges without a neighbour. -/
def OnBoundary (x : Fin 2 → ℝ) : Prop := ∃ e : m.Edge, m.nb e = none ∧ ∃ s ∈ Set.Icc (0:ℝ) 1, x = segPt (src e) (tgt e) s

/-- `U` is a wave on the domain for times in `T`: its time derivative is `W`, that of `W` is `A`, the wave equation `∂ₜₜU = ΔU` holds in
the domain and `U` vanishes on its boundary. -/
structure Wave (T : Set ℝ) (U W A : ℝ → AnaD 2) : Prop where
  vel : ∀ x, ∀ t ∈ T, HasDerivAt (fun t => (U t).1 x) ((W t).1 x) t
  acc : ∀ x, ∀ t ∈ T, HasDerivAt (fun t => (W t).1 x) ((A t).1 x) t
  wave : ∀ t ∈ T, ∀ x, m.InDomain x → (A t).1 x = ∑ b, deriv (fun s => deriv (fun r => (U t).1 (Function.update x b r)) s) (x b)
  zero : ∀ t ∈ T, ∀ x, m.OnBoundary x → (U t).1 x = 0

/-- The wave as a path of functions on the triangulation. -/
def path (U W A : ℝ → AnaD 2) : Spec.Path m.Broken :=
  ⟨fun t => m.fn (U t), fun t => m.fn (W t), fun t => m.fn (W t), fun t => m.fn (A t)⟩

theorem lap_fn (f : AnaD 2) : m.space.lap (m.fn f) = m.fn (∑ b, AnaD.pd b (AnaD.pd b f)) := by
  funext K
  change (∑ b, ((AnaD.pd b).comp (AnaD.pd b)).comp (LinearMap.proj K)) (m.fn f) = _
  rw [LinearMap.sum_apply]
  rfl

theorem Wave.eq {m : Tri} {T : Set ℝ} {U W A : ℝ → AnaD 2} (h : m.Wave T U W A) {t : ℝ} (ht : t ∈ T) :
    m.fn (A t) = m.space.lap (m.fn (U t)) := by
  rw [lap_fn]
  funext K
  change A t = ∑ b, AnaD.pd b (AnaD.pd b (U t))
  rw [← sub_eq_zero]
  set f := A t - ∑ b, AnaD.pd b (AnaD.pd b (U t)) with hf
  have z : ∀ s r : ℝ, 0 ≤ s → 0 ≤ r → s + r ≤ 1 → f.1 (refPt (m.v K 0) (m.v K 1) (m.v K 2) s r) = 0 := fun s r hs hr hsr =>
    sub_eq_zero.2 ((h.wave t ht _ ⟨K, s, r, hs, hr, hsr, rfl⟩).trans (Grid.laplacian _ _))
  refine AnaD.triL2_zero (m.pos K) (le_antisymm ?_ (AnaD.triL2_self (m.pos K) f))
  rw [← map_zero (AnaD.triInt (m.v K 0) (m.v K 1) (m.v K 2))]
  refine AnaD.triInt_mono (m.pos K) fun s r hs hr hsr => ?_
  change f.1 _ * f.1 _ ≤ 0
  rw [z s r hs hr hsr, zero_mul]

end Tri

/-- C109: a wave on the domain solves the equations the method is built on, tested with any continuous functions. -/
theorem C109_solution {m : Tri} {T : Set ℝ} {U W A : ℝ → AnaD 2} (h : m.Wave T U W A) {Y : Submodule ℝ m.Broken}
    (hY : ∀ y ∈ Y, m.Conforming y) : Spec.WaveSolution m.space Y (m.path U W A) T where
  vel _ _ := rfl
  weak t ht y hy := by
    have hg := m.green (m.fn (U t)) (hY y hy)
    have h0 : ∑ e : m.Edge, ((m.nb e).elim 0 fun e' => ∑ b, Tri.nrm e b * m.edgeL2 e (m.jump e e' b (m.fn (U t))) (y e.1)) = 0 := by
      refine sum_eq_zero fun e _ => ?_
      rcases m.nb e with _ | e'
      · rfl
      · simp only [Option.elim_some]
        refine sum_eq_zero fun b _ => ?_
        have : m.jump e e' b (m.fn (U t)) = 0 := sub_self _
        rw [this]; simp
    rw [h0, ← h.eq ht] at hg
    change m.space.mass (m.fn (A t)) y + m.space.stiff (m.fn (U t)) y - m.space.nit (m.fn (U t)) y = 0
    linarith
  strong t ht y := by
    have e : (m.path U W A).du2 t - m.space.lap ((m.path U W A).u1 t) = 0 := sub_eq_zero.2 (h.eq ht)
    rw [e]; simp
  dirichlet t ht y := by
    change m.space.pen (m.fn (U t)) y = 0
    rw [Tri.space_pen]
    refine sum_eq_zero fun e _ => ?_
    split
    · rename_i he
      have : m.edgeL2 e (m.fn (U t) e.1) (y e.1) = AnaD.segInt (Tri.src e) (Tri.tgt e) 0 := by
        refine AnaD.segInt_congr fun s h0 h1 => ?_
        change (U t).1 _ * (y e.1).1 _ = 0
        rw [h.zero t ht _ ⟨e, he, s, ⟨h0, h1⟩, rfl⟩, zero_mul]
      rw [this, map_zero, mul_zero]
    · rfl
  smooth t ht y := by
    change m.space.ghost (m.fn (U t)) y = 0
    rw [Tri.space_ghost, sum_eq_zero, mul_zero]
    intro e _
    rcases m.nb e with _ | e'
    · rfl
    · simp only [Option.elim_some]
      rw [sum_eq_zero, mul_zero]
      intro b _
      have : m.jump e e' b (m.fn (U t)) = 0 := sub_self _
      rw [this]; simp

/-- C109 for the program: let the data be the values of a wave on the domain, and the initial values set on the object those of the
wave.  Then the vector `get_spacetime_rhs` returns, paired with any vector, is the bilinear form of the method at the wave, up to the
quadrature error of the data and the placeholder. -/
theorem C109_consistency {m : Tri} {interp : m.Broken →ₗ[ℝ] m.Broken} {a : Args m.Broken} {om om' : DataDomain m.Broken}
    {B : Built m.Broken} (hb : construct interp a om = (.ok B, om')) {C : Cfg m.Broken} (hC : C.Ok) (hB : C.OfBuilt B) (hS : C.S = m.space)
    (hdt : 0 < C.D.dt) (hfe : ∀ y ∈ C.fe.dual, m.Conforming y) {U W A : ℝ → AnaD 2}
    (h : m.Wave (Set.Icc 0 (C.D.N * C.D.dt)) U W A)
    (hdata : ∀ t, C.D.sol t = m.fn (U t)) {w₀ : World m.Broken} (h₀ : w₀.Fresh) (hf : w₀.NoFail) (ops : List (Op m.Broken))
    (hops : ∀ op ∈ ops, ¬ op.WritesInitial) {r : Ref} {w₁ : World m.Broken}
    (hr : getSpacetimeRhs C (runOps C (.setupFE :: .setInitial (m.fn (U 0)) (m.fn (W 0)) :: ops) w₀) = (.ok r, w₁))
    {Q : ℕ → (ℝ → ℝ) → ℝ} (hQ : ∀ n < C.D.N, RuleOnSlab B.qr C.D.dt n (Q n)) (y : Vec) :
    ∑ d ∈ range C.full.size, w₁.heap r d * y d
      = Spec.pathForm C.S C.D C.D.ind (m.path U W A) (C.full.field C.fe y) + 1e-20 * C.S.mass C.S.one (C.full.field C.fe y 2 0)
        + ∑ n ∈ range C.D.N, C.D.gData *
            (Q n (fun t => C.S.omega C.D.ind (m.fn (U t)) (Spec.val C.D.q C.D.dt n (C.full.field C.fe y 0) t))
              - Spec.slabInt C.D.dt n (fun t => C.S.omega C.D.ind (m.fn (U t)) (Spec.val C.D.q C.D.dt n (C.full.field C.fe y 0) t))) := by
  obtain ⟨hq, -⟩ := construct_qr hb
  have hu : Spec.WaveSolution C.S C.fe.dual (m.path U W A) (Set.Icc 0 (C.D.N * C.D.dt)) := by
    rw [hS]; exact C109_solution h hfe
  rw [C33_initial_data_partial h₀ hf _ _ ops hops hr, rhsVecOf, assembleVec_pair _ _ _ _ hC.full]
  exact C64_consistency C.S C.D hC.disc hdt C.D.ind hu hdata hq hB.pts hB.ws hQ _ (fun i => field_mem_dual _ _ y i)

/-- The boundary of the domain is contained in that of the unit square, meshes.py:775-781. -/
def Tri.BdSquare (m : Tri) : Prop := ∀ x, m.OnBoundary x → x 0 = 0 ∨ x 0 = 1 ∨ x 1 = 0 ∨ x 1 = 1

/-- The sample solution of solve_2d.py is a wave on every triangulation of the unit square. -/
theorem Tri.sol2_wave {m : Tri} (hm : m.BdSquare) (T : Set ℝ) : m.Wave T (fun t => AnaD.sines (Real.cos (√2 * Real.pi * t)))
    (fun t => AnaD.sines (-√2 * Real.pi * Real.sin (√2 * Real.pi * t)))
    (fun t => AnaD.sines (-(√2 * Real.pi) ^ 2 * Real.cos (√2 * Real.pi * t))) where
  vel x t _ := by
    have h0 : HasDerivAt (fun t : ℝ => √2 * Real.pi * t) (√2 * Real.pi) t := by
      simpa using (hasDerivAt_id t).const_mul (√2 * Real.pi)
    refine (h0.cos.mul_const _).congr_deriv ?_
    change _ = -√2 * Real.pi * Real.sin (√2 * Real.pi * t) * _
    ring
  acc x t _ := by
    have h0 : HasDerivAt (fun t : ℝ => √2 * Real.pi * t) (√2 * Real.pi) t := by
      simpa using (hasDerivAt_id t).const_mul (√2 * Real.pi)
    refine ((h0.sin.const_mul (-√2 * Real.pi)).mul_const _).congr_deriv ?_
    change _ = -(√2 * Real.pi) ^ 2 * Real.cos (√2 * Real.pi * t) * _
    ring
  wave t _ x _ := by
    simp only [Grid.sines_deriv2]
    rw [sum_const, card_univ, Fintype.card_fin, nsmul_eq_mul]
    change -(√2 * Real.pi) ^ 2 * Real.cos (√2 * Real.pi * t) * _ = _ * (_ * (Real.cos (√2 * Real.pi * t) * _))
    rw [mul_pow, Real.sq_sqrt (by norm_num)]
    push_cast
    ring
  zero t _ x hx := by
    change _ * ∏ a, _ = _
    rw [Fin.prod_univ_two]
    rcases hm x hx with h | h | h | h <;> simp [h]

/-- The sample solution of solve_2d.py as a path. -/
noncomputable def Tri.path2 (m : Tri) : Spec.Path m.Broken :=
  ⟨m.sol2, m.dsol2, m.dsol2, fun t => m.fn (AnaD.sines (-(√2 * Real.pi) ^ 2 * Real.cos (√2 * Real.pi * t)))⟩

/-- C109 for solve_2d.py on any triangulation of the unit square, with any number of slabs, any continuous elements and any data domain. -/
theorem C109_solve_2d {m : Tri} (hm : m.BdSquare) {N : ℤ} {interp : m.Broken →ₗ[ℝ] m.Broken}
    {om om' : DataDomain m.Broken} {B : Built m.Broken} {C : Cfg m.Broken}
    (hb : construct interp { Script.d2.args m.sol2 m.dsol2 with N := N } om = (.ok B, om')) (hN : 0 < N)
    (hC : C.Ok) (hB : C.OfBuilt B) (hS : C.S = m.space) {k : ℕ} (hfe : C.fe.dual ≤ m.lagrange k)
    {w₀ : World m.Broken} (h₀ : w₀.Fresh) (hf : w₀.NoFail) (ops : List (Op m.Broken))
    (hops : ∀ op ∈ ops, ¬ op.WritesInitial) {r : Ref} {w₁ : World m.Broken}
    (hr : getSpacetimeRhs C (runOps C (.setupFE :: .setInitial (m.sol2 0) (m.dsol2 0) :: ops) w₀) = (.ok r, w₁))
    {Q : ℕ → (ℝ → ℝ) → ℝ} (hQ : ∀ n < C.D.N, RuleOnSlab B.qr C.D.dt n (Q n)) (y : Vec) :
    ∑ d ∈ range C.full.size, w₁.heap r d * y d
      = Spec.pathForm C.S C.D C.D.ind m.path2 (C.full.field C.fe y) + 1e-20 * C.S.mass C.S.one (C.full.field C.fe y 2 0)
        + ∑ n ∈ range C.D.N, C.D.gData *
            (Q n (fun t => C.S.omega C.D.ind (m.sol2 t) (Spec.val C.D.q C.D.dt n (C.full.field C.fe y 0) t))
              - Spec.slabInt C.D.dt n (fun t => C.S.omega C.D.ind (m.sol2 t) (Spec.val C.D.q C.D.dt n (C.full.field C.fe y 0) t))) := by
  obtain ⟨b, -, e⟩ := construct_facts hb
  have hsol : C.D.sol = m.sol2 := by rw [hB.D, e]; rfl
  have hNR : (0:ℝ) < N := by exact_mod_cast hN
  have hdt : 0 < C.D.dt := by
    rw [hB.D, e]
    simp [builtOf, Script.args, Script.T, hNR]
  exact C109_consistency hb hC hB hS hdt (fun y hy => (m.mem_lagrange.1 (hfe hy)).2) (Tri.sol2_wave hm _) (fun t => congrFun hsol t)
    h₀ hf ops hops hr hQ y

/-- C109: the solution on the triangulation and its derivative are those of the script (C67). -/
theorem C109_sample (m : Tri) (K : Fin m.n) (t : ℝ) (y : ℕ → ℝ) :
    (m.cell K (m.sol2 t)).1 (fun a => y a) = Script.d2.sampleSol t y ∧
      (m.cell K (m.dsol2 t)).1 (fun a => y a) = Script.d2.dtSampleSol t y := by
  constructor
  · change _ * ∏ a, _ = _
    rw [Fin.prod_univ_two]; simp only [Script.sampleSol]; exact (mul_assoc _ _ _).symm
  · change _ * ∏ a, _ = _
    rw [Fin.prod_univ_two]; simp only [Script.dtSampleSol]; exact (mul_assoc _ _ _).symm

end Dxss
