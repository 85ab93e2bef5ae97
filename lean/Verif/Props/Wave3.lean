import Verif.Lemmas.GridGreen
import Verif.Props.ThreeD
import Verif.Props.Wave1

/-!
# Property C104: the wave equation on a box

Waves on a box satisfy the discrete equations, in any number of dimensions.
-/

namespace Dxss
open Finset MeasureTheory

namespace Grid
variable {n : ℕ} (m : Grid n)

/-- The domain. -/
def InBox (x : Fin (n + 1) → ℝ) : Prop := ∀ a, x a ∈ Set.Icc ((m.axis a).x 0) ((m.axis a).x (m.axis a).n)

/-- The boundary of the domain. -/
def OnBoundary (x : Fin (n + 1) → ℝ) : Prop := m.InBox x ∧ ∃ a, x a = (m.axis a).x 0 ∨ x a = (m.axis a).x (m.axis a).n

/-- `U` is a wave on the box for times in `T`: its time derivative is `W`, that of `W` is `A`, the wave equation `∂ₜₜU = ΔU` holds in the
box and `U` vanishes on its boundary. -/
structure Wave (T : Set ℝ) (U W A : ℝ → AnaD (n + 1)) : Prop where
  vel : ∀ x, ∀ t ∈ T, HasDerivAt (fun t => (U t).1 x) ((W t).1 x) t
  acc : ∀ x, ∀ t ∈ T, HasDerivAt (fun t => (W t).1 x) ((A t).1 x) t
  wave : ∀ t ∈ T, ∀ x, m.InBox x → (A t).1 x = ∑ b, deriv (fun s => deriv (fun r => (U t).1 (Function.update x b r)) s) (x b)
  zero : ∀ t ∈ T, ∀ x, m.OnBoundary x → (U t).1 x = 0

/-- The wave as a path of functions on the grid. -/
def path (U W A : ℝ → AnaD (n + 1)) : Spec.Path m.Broken :=
  ⟨fun t => m.fn (U t), fun t => m.fn (W t), fun t => m.fn (W t), fun t => m.fn (A t)⟩

/-- Partial derivatives are derivatives in one coordinate. -/
theorem pd_update (f : AnaD (n + 1)) (b : Fin (n + 1)) (x : Fin (n + 1) → ℝ) (s : ℝ) :
    deriv (fun r => f.1 (Function.update x b r)) s = (AnaD.pd b f).1 (Function.update x b s) := by
  have h : ∀ r, Function.update x b r = (b.insertNth r (b.removeNth x) : Fin (n + 1) → ℝ) := fun r => by
    rw [← Fin.update_insertNth (α := fun _ => ℝ) b (x b) r (b.removeNth x), Fin.insertNth_self_removeNth]
  simp only [h]
  exact AnaD.line_deriv b (b.removeNth x) f s

theorem laplacian (f : AnaD (n + 1)) (x : Fin (n + 1) → ℝ) :
    ∑ b, deriv (fun s => deriv (fun r => f.1 (Function.update x b r)) s) (x b) = (∑ b, AnaD.pd b (AnaD.pd b f)).1 x := by
  rw [Submodule.coe_sum, Finset.sum_apply]
  refine sum_congr rfl fun b _ => ?_
  simp only [pd_update]
  rw [Function.update_eq_self]

theorem Wave.eq {m : Grid n} {T : Set ℝ} {U W A : ℝ → AnaD (n + 1)} (h : m.Wave T U W A) {t : ℝ} (ht : t ∈ T) :
    A t = ∑ b, AnaD.pd b (AnaD.pd b (U t)) := by
  rw [← sub_eq_zero]
  refine AnaD.eq_zero (lo := fun a => (m.axis a).x 0) (hi := fun a => (m.axis a).x (m.axis a).n) (fun a => (m.axis a).x_lt) ?_
  rw [show (0:ℝ) = ∫ y in Set.Icc (fun a => (m.axis a).x 0) (fun a => (m.axis a).x (m.axis a).n), (0:ℝ) by simp]
  refine setIntegral_congr_fun isCompact_Icc.isClosed.measurableSet fun y hy => ?_
  have : (A t - ∑ b, AnaD.pd b (AnaD.pd b (U t))).1 y = 0 :=
    sub_eq_zero.2 ((h.wave t ht y fun a => ⟨hy.1 a, hy.2 a⟩).trans (laplacian _ _))
  simp only [this, mul_zero]

theorem x_mono (m : Mesh1) {i j : ℕ} (hij : i ≤ j) (hj : j ≤ m.n) : m.x i ≤ m.x j := by
  induction j with
  | zero => rw [Nat.le_zero.1 hij]
  | succ j ih =>
    rcases Nat.lt_or_eq_of_le hij with h | rfl
    · exact (ih (by omega) (by omega)).trans (m.lt j (by omega)).le
    · exact le_rfl

/-- Points of a facet lie in the domain. -/
theorem facet_inBox (I : m.Cell) (a : Fin (n + 1)) {s : ℝ} (hs : s ∈ Set.Icc ((m.axis a).x 0) ((m.axis a).x (m.axis a).n)) {y : Fin n → ℝ}
    (hy : y ∈ Set.Icc (a.removeNth (lo I)) (a.removeNth (hi I))) : m.InBox (a.insertNth s y) := by
  intro b
  rcases Fin.eq_self_or_eq_succAbove a b with rfl | ⟨j, rfl⟩
  · simpa using hs
  · simp only [Fin.insertNth_apply_succAbove]
    exact ⟨(x_mono _ (Nat.zero_le _) (I (a.succAbove j)).2.le).trans (hy.1 j), (hy.2 j).trans (x_mono _ (I (a.succAbove j)).2 le_rfl)⟩

theorem faceInt_zero (a : Fin (n + 1)) (s : ℝ) (I : m.Cell) {f g : (Fin (n + 1) → ℝ) → ℝ}
    (h : ∀ y ∈ Set.Icc (a.removeNth (lo I)) (a.removeNth (hi I)), f (a.insertNth s y) = 0) : m.faceInt a s I f g = 0 := by
  rw [faceInt, show (0:ℝ) = ∫ y in Set.Icc (a.removeNth (lo I)) (a.removeNth (hi I)), (0:ℝ) by simp]
  refine setIntegral_congr_fun isCompact_Icc.isClosed.measurableSet fun y hy => ?_
  simp only [h y hy, zero_mul]

end Grid

/-- C104: a wave on the box solves the equations the method is built on, tested with any continuous functions. -/
theorem C104_solution {n : ℕ} {m : Grid n} {T : Set ℝ} {U W A : ℝ → AnaD (n + 1)} (h : m.Wave T U W A) {Y : Submodule ℝ m.Broken}
    (hY : ∀ y ∈ Y, m.Conforming y) : Spec.WaveSolution m.space Y (m.path U W A) T where
  vel _ _ := rfl
  weak t ht y hy := by
    have := m.green (U t) (hY y hy)
    rw [← h.eq ht] at this
    exact this
  strong t ht y := by
    have e : (m.path U W A).du2 t - m.space.lap ((m.path U W A).u1 t) = 0 := by
      rw [sub_eq_zero]
      change m.fn (A t) = fun I => (∑ b, ((AnaD.pd b).comp (AnaD.pd b)).comp (LinearMap.proj I)) (m.fn (U t))
      rw [h.eq ht]
      funext I
      rw [LinearMap.sum_apply]
      rfl
    rw [e]; simp
  dirichlet t ht y := by
    change m.space.pen (m.fn (U t)) y = 0
    rw [Grid.space_pen]
    refine sum_eq_zero fun a _ => sum_eq_zero fun I _ => ?_
    have z : ∀ s, s = (m.axis a).x 0 ∨ s = (m.axis a).x (m.axis a).n → m.faceInt a s I (m.fn (U t) I).1 (y I).1 = 0 := fun s hs =>
      m.faceInt_zero a s I fun z hz => h.zero t ht _ ⟨m.facet_inBox I a (by
        have := (m.axis a).x_lt.le
        rcases hs with rfl | rfl
        exacts [⟨le_rfl, this⟩, ⟨this, le_rfl⟩]) hz, a, by simpa using hs⟩
    have e1 : (if (I a).1 + 1 = (m.axis a).n then 1 / Grid.diam I * m.faceInt a (Grid.hi I a) I (m.fn (U t) I).1 (y I).1 else 0) = 0 := by
      split
      · rename_i hI
        rw [z _ (.inr (by rw [Grid.hi, hI])), mul_zero]
      · rfl
    have e2 : (if (I a).1 = 0 then 1 / Grid.diam I * m.faceInt a (Grid.lo I a) I (m.fn (U t) I).1 (y I).1 else 0) = 0 := by
      split
      · rename_i hI
        rw [z _ (.inl (by rw [Grid.lo, hI])), mul_zero]
      · rfl
    rw [e1, e2, add_zero]
  smooth t ht y := by
    change m.space.ghost (m.fn (U t)) y = 0
    rw [Grid.space_ghost]
    refine sum_eq_zero fun a _ => sum_eq_zero fun I _ => ?_
    split
    · rename_i hI
      rw [sum_eq_zero fun b _ => m.faceInt_zero a _ I fun z _ => ?_, mul_zero]
      have : m.jump a I hI b (m.fn (U t)) = 0 := sub_self _
      rw [this]; rfl
    · rfl

/-- C104 for the program: let the data be the values of a wave on the box, and the initial values set on the object those of the
wave.  Then the vector `get_spacetime_rhs` returns, paired with any vector, is the bilinear form of the method at the wave, up to the
quadrature error of the data and the placeholder. -/
theorem C104_consistency {n : ℕ} {m : Grid n} {interp : m.Broken →ₗ[ℝ] m.Broken} {a : Args m.Broken} {om om' : DataDomain m.Broken}
    {B : Built m.Broken} (hb : construct interp a om = (.ok B, om')) {C : Cfg m.Broken} (hC : C.Ok) (hB : C.OfBuilt B) (hS : C.S = m.space)
    (hdt : 0 < C.D.dt) (hfe : ∀ y ∈ C.fe.dual, m.Conforming y) {U W A : ℝ → AnaD (n + 1)}
    (h : m.Wave (Set.Icc 0 (C.D.N * C.D.dt)) U W A)
    (hdata : ∀ t, C.D.sol t = m.fn (U t)) {w₀ : World m.Broken} (h₀ : w₀.Fresh) (hf : w₀.NoFail) (ops : List (Op m.Broken))
    (hops : ∀ op ∈ ops, ¬ op.WritesInitial) {r : Ref} {w₁ : World m.Broken}
    (hr : getSpacetimeRhs C (runOps C (.setupFE :: .setInitial (m.fn (U 0)) (m.fn (W 0)) :: ops) w₀) = (.ok r, w₁))
    {Q : ℕ → (ℝ → ℝ) → ℝ} (hQ : ∀ n < C.D.N, RuleOnSlab B.qr C.D.dt n (Q n)) (y : Vec) :
    ∑ d ∈ range C.full.size, w₁.heap r d * y d
      = Spec.pathForm C.S C.D C.D.ind (m.path U W A) (C.full.field C.fe y) + 1e-20 * C.S.mass C.S.one (C.full.field C.fe y 2 0)
        + ∑ n ∈ range C.D.N, C.D.gData *
            (Q n (fun t => C.S.omega C.D.ind (m.fn (U t)) (Spec.val C.D.q C.D.dt n (C.full.field C.fe y 0) t))
              - Spec.slabInt C.D.dt n (fun t => C.S.omega C.D.ind (m.fn (U t)) (Spec.val C.D.q C.D.dt n (C.full.field C.fe y 0) t))) := by
  obtain ⟨hq, -⟩ := construct_qr hb
  have hu : Spec.WaveSolution C.S C.fe.dual (m.path U W A) (Set.Icc 0 (C.D.N * C.D.dt)) := by
    rw [hS]; exact C104_solution h hfe
  rw [C33_initial_data_partial h₀ hf _ _ ops hops hr, rhsVecOf, assembleVec_pair _ _ _ _ hC.full]
  exact C64_consistency C.S C.D hC.disc hdt C.D.ind hu hdata hq hB.pts hB.ws hQ _ (fun i => field_mem_dual _ _ y i)

namespace Grid

theorem q1_conforming {n : ℕ} (m : Grid n) : ∀ y ∈ m.q1.dual, m.Conforming y := fun _ hy =>
  m.conforming_of_lagrange (k := 1) (m.q1_primal hy)

theorem sines_update {d : ℕ} (c : ℝ) (b : Fin d) (x : Fin d → ℝ) (r : ℝ) :
    (AnaD.sines c : AnaD d).1 (Function.update x b r) = c * (∏ a ∈ univ.erase b, Real.sin (Real.pi * x a)) * Real.sin (Real.pi * r) := by
  change c * ∏ a, _ = _
  rw [← mul_prod_erase univ _ (mem_univ b), Function.update_self, mul_assoc]
  rw [prod_congr rfl fun a ha => by rw [Function.update_of_ne (ne_of_mem_erase ha)]]
  ring

theorem sines_deriv2 {d : ℕ} (c : ℝ) (b : Fin d) (x : Fin d → ℝ) :
    deriv (fun s => deriv (fun r => (AnaD.sines c : AnaD d).1 (Function.update x b r)) s) (x b)
      = -Real.pi ^ 2 * (AnaD.sines c : AnaD d).1 x := by
  have e : (AnaD.sines c : AnaD d).1 x = c * (∏ a ∈ univ.erase b, Real.sin (Real.pi * x a)) * Real.sin (Real.pi * x b) := by
    rw [← sines_update, Function.update_eq_self]
  simp only [sines_update]
  rw [e]
  set K := c * ∏ a ∈ univ.erase b, Real.sin (Real.pi * x a)
  have h0 : ∀ y, HasDerivAt (fun y : ℝ => Real.pi * y) Real.pi y := fun y => by simpa using (hasDerivAt_id y).const_mul Real.pi
  have h1 : (fun s => deriv (fun r => K * Real.sin (Real.pi * r)) s) = fun s => K * (Real.cos (Real.pi * s) * Real.pi) :=
    funext fun s => ((h0 s).sin.const_mul K).deriv
  rw [h1, (((h0 (x b)).cos.mul_const Real.pi).const_mul K).deriv]
  ring

/-- The sample solution of solve_3d.py is a wave. -/
theorem sol3_wave {k : ℕ} {hk : 0 < k} (T : Set ℝ) : (unit 2 k hk).Wave T (fun t => AnaD.sines (Real.cos (√3 * Real.pi * t)))
    (fun t => AnaD.sines (-√3 * Real.pi * Real.sin (√3 * Real.pi * t)))
    (fun t => AnaD.sines (-(√3 * Real.pi) ^ 2 * Real.cos (√3 * Real.pi * t))) where
  vel x t _ := by
    have h0 : HasDerivAt (fun t : ℝ => √3 * Real.pi * t) (√3 * Real.pi) t := by
      simpa using (hasDerivAt_id t).const_mul (√3 * Real.pi)
    refine (h0.cos.mul_const _).congr_deriv ?_
    change _ = -√3 * Real.pi * Real.sin (√3 * Real.pi * t) * _
    ring
  acc x t _ := by
    have h0 : HasDerivAt (fun t : ℝ => √3 * Real.pi * t) (√3 * Real.pi) t := by
      simpa using (hasDerivAt_id t).const_mul (√3 * Real.pi)
    refine ((h0.sin.const_mul (-√3 * Real.pi)).mul_const _).congr_deriv ?_
    change _ = -(√3 * Real.pi) ^ 2 * Real.cos (√3 * Real.pi * t) * _
    ring
  wave t _ x _ := by
    simp only [sines_deriv2]
    rw [sum_const, card_univ, Fintype.card_fin, nsmul_eq_mul]
    change -(√3 * Real.pi) ^ 2 * Real.cos (√3 * Real.pi * t) * _ = _ * (_ * (Real.cos (√3 * Real.pi * t) * _))
    rw [mul_pow, Real.sq_sqrt (by norm_num)]
    push_cast
    ring
  zero t _ x hx := by
    obtain ⟨a, ha⟩ := hx.2
    rw [(unit_ends a).1, (unit_ends a).2] at ha
    change _ * ∏ a, _ = _
    rw [prod_eq_zero (mem_univ a), mul_zero]
    rcases ha with h | h <;> simp [h]

end Grid

/-- The sample solution of solve_3d.py as a path. -/
noncomputable def Grid.path3 {n : ℕ} (m : Grid n) : Spec.Path m.Broken :=
  ⟨m.sol3, m.dsol3, m.dsol3, fun t => m.fn (AnaD.sines (-(√3 * Real.pi) ^ 2 * Real.cos (√3 * Real.pi * t)))⟩

/-- C104 for solve_3d.py with any number of cells and slabs, and any data domain. -/
theorem C104_solve_3d {k : ℕ} {hk : 0 < k} {N : ℤ} {interp : (Grid.unit 2 k hk).Broken →ₗ[ℝ] (Grid.unit 2 k hk).Broken}
    {om om' : DataDomain (Grid.unit 2 k hk).Broken} {B : Built (Grid.unit 2 k hk).Broken} {C : Cfg (Grid.unit 2 k hk).Broken}
    (hb : construct interp { Script.d3.args (Grid.unit 2 k hk).sol3 (Grid.unit 2 k hk).dsol3 with N := N } om = (.ok B, om')) (hN : 0 < N)
    (hC : C.Ok) (hB : C.OfBuilt B) (hS : C.S = (Grid.unit 2 k hk).space) (hfe : C.fe = (Grid.unit 2 k hk).q1)
    {w₀ : World (Grid.unit 2 k hk).Broken} (h₀ : w₀.Fresh) (hf : w₀.NoFail) (ops : List (Op (Grid.unit 2 k hk).Broken))
    (hops : ∀ op ∈ ops, ¬ op.WritesInitial) {r : Ref} {w₁ : World (Grid.unit 2 k hk).Broken}
    (hr : getSpacetimeRhs C (runOps C (.setupFE :: .setInitial ((Grid.unit 2 k hk).sol3 0) ((Grid.unit 2 k hk).dsol3 0) :: ops) w₀)
      = (.ok r, w₁)) {Q : ℕ → (ℝ → ℝ) → ℝ} (hQ : ∀ n < C.D.N, RuleOnSlab B.qr C.D.dt n (Q n)) (y : Vec) :
    ∑ d ∈ range C.full.size, w₁.heap r d * y d
      = Spec.pathForm C.S C.D C.D.ind (Grid.unit 2 k hk).path3 (C.full.field C.fe y) + 1e-20 * C.S.mass C.S.one (C.full.field C.fe y 2 0)
        + ∑ n ∈ range C.D.N, C.D.gData *
            (Q n (fun t => C.S.omega C.D.ind ((Grid.unit 2 k hk).sol3 t) (Spec.val C.D.q C.D.dt n (C.full.field C.fe y 0) t))
              - Spec.slabInt C.D.dt n (fun t => C.S.omega C.D.ind ((Grid.unit 2 k hk).sol3 t) (Spec.val C.D.q C.D.dt n (C.full.field C.fe y 0) t))) := by
  obtain ⟨b, -, e⟩ := construct_facts hb
  have hD := threeD_data hb hN hB
  have hsol : C.D.sol = (Grid.unit 2 k hk).sol3 := by rw [hB.D, e]; rfl
  exact C104_consistency hb hC hB hS hD.pos.dt (by rw [hfe]; exact Grid.q1_conforming _) (Grid.sol3_wave _) (fun t => congrFun hsol t)
    h₀ hf ops hops hr hQ y

namespace Example

/-- C104 for solve_3d.py: its sample solution as data, with its initial values. -/
example (ind : box.Broken) : ∃ B om', construct LinearMap.id (Script.d3.args box.sol3 box.dsol3) (Script.d3.dataDomain ind)
      = (.ok B, om') ∧ ∀ heap, ∃ r w₁, ∃ Q : ℕ → (ℝ → ℝ) → ℝ,
      getSpacetimeRhs (cfgBox B) (runOps (cfgBox B) [.setupFE, .setInitial (box.sol3 0) (box.dsol3 0)] (freshWorld heap)) = (.ok r, w₁) ∧
      ∀ y, ∑ d ∈ range (cfgBox B).full.size, w₁.heap r d * y d
        = Spec.pathForm (cfgBox B).S (cfgBox B).D (cfgBox B).D.ind box.path3 ((cfgBox B).full.field (cfgBox B).fe y)
          + 1e-20 * (cfgBox B).S.mass (cfgBox B).S.one ((cfgBox B).full.field (cfgBox B).fe y 2 0)
          + ∑ n ∈ range (cfgBox B).D.N, (cfgBox B).D.gData *
            (Q n (fun t => (cfgBox B).S.omega (cfgBox B).D.ind (box.sol3 t) (Spec.val (cfgBox B).D.q (cfgBox B).D.dt n ((cfgBox B).full.field (cfgBox B).fe y 0) t))
              - Spec.slabInt (cfgBox B).D.dt n (fun t => (cfgBox B).S.omega (cfgBox B).D.ind (box.sol3 t)
                (Spec.val (cfgBox B).D.q (cfgBox B).D.dt n ((cfgBox B).full.field (cfgBox B).fe y 0) t))) := by
  obtain ⟨B, om', hb, hC, hB⟩ := builtBox ind
  refine ⟨B, om', hb, fun heap => ?_⟩
  obtain ⟨w₁, h⟩ := getRhs_after (cfgBox B) heap (box.sol3 0) (box.dsol3 0) []
  choose Q hQ using fun k => exists_ruleOnSlab (construct_qr hb).1 (cfgBox B).D.dt k
  have key := C104_solve_3d (N := 8) (C := cfgBox B) hb (by norm_num) hC hB rfl rfl (freshWorld_fresh heap) (freshWorld_noFail heap) [] (by simp) h
    fun k _ => hQ k
  refine ⟨_, w₁, Q, h, fun y => (key y).trans ?_⟩
  congr 1

end Example

end Dxss
