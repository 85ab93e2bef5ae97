import Verif.Lemmas.TriSquare
import Verif.Props.OrderReport
import Verif.Props.Wave2

/-!
# Properties C110, C111: triangulations in the plane

C110: as C106 and C107, on triangulations.  C111: what solve_2d.py computes and reports.
-/

namespace Dxss
open Finset

/-! ## C110 -/

section
variable {m : Tri} {C : Cfg m.Broken}

/-- The constant of the spatial estimate on a triangulation. -/
noncomputable def triConst (hm hM δ R lam : ℝ) : ℝ :=
  (2 * R * hM + 120 * R ^ 2 * hM ^ 2 / δ) / lam + 4 * R ^ 4 / hm ^ 2 + 120 * hM * R ^ 4 / (δ * hm)

/-- C110 for every triangulation and continuous elements of every order: a discrete state of zero energy is zero, whatever the data domain;
there is a constant of observability; and there is exactly one solution for every right-hand side if the placeholder is small against such a
constant. -/
theorem C110_every_mesh (hC : C.Ok) (hS : C.S = m.space) (hind : m.Nonneg C.D.ind) (hp : C.D.Positive)
    (hlam : 0 < C.D.lam) (hN : 0 < C.D.N) {k : ℕ} (hfe : C.fe.primal ≤ m.lagrange k) (hi : C.fe.Indep) :
    (∀ x, Spec.energy C.S C.D C.D.ind (C.full.field C.fe x) = 0 → ∀ d < C.full.size, x d = 0) ∧ (∃ K, 0 ≤ K ∧ C.Observable K) ∧
    ∀ K, C.Observable K → (K * ((1e-20) ^ 2 * (C.D.qstar + 1) ^ 2) < C.D.gDual * C.D.dt → ∀ (w₀ : World m.Broken), w₀.Fresh → ∀ (ops : List (Op m.Broken)),
      (∀ op ∈ ops, ¬ op.OtherFlag false) → ∀ (A : Mat) (w₁ : World m.Broken),
        getSpacetimeMatrix C false (runOps C ops w₀) = (.ok A, w₁) → A.size = C.full.size ∧ A.UniquelySolvable) := by
  have hPsd : C.S.Psd C.D.ind := hS ▸ m.space_psd hind
  have hd : C.S.Definite := hS ▸ m.space_definite
  have he : C.Elliptic := by
    intro u hu
    rw [hS]
    exact Tri.elliptic (m.mem_lagrange.1 (hfe hu)).2
  exact ⟨C106_energy_definite hC hPsd hd hp hlam he hi, C106_unique_solution hC hPsd hd hp hlam he hi hN⟩

variable {hm hM δ R : ℝ}

theorem triConst_nonneg (h : m.Bounds hm hM δ R) {lam : ℝ} (hlam : 0 < lam) : 0 ≤ triConst hm hM δ R lam := by
  have := h.hm0; have := h.δ0; have := h.R0
  have : 0 < hM := h.hm0.trans_le h.le
  unfold triConst; positivity

/-- C110: boundary values, jumps of the gradient and the Laplacian on the triangles control the finite element functions up to cubic ones. -/
theorem C110_elliptic (hS : C.S = m.space) (hlam : 0 < C.D.lam) {k : ℕ} (hk : k ≤ 3) (hfe : C.fe.primal ≤ m.lagrange k)
    (h : m.Bounds hm hM δ R) : C.EllipticBound (triConst hm hM δ R C.D.lam) := by
  have h0 := h.hm0; have hδ := h.δ0; have hR := h.R0
  have hM0 : 0 < hM := h.hm0.trans_le h.le
  have hPsd := m.space_psd (i := 0) fun K s t _ _ _ => le_rfl
  intro u hu
  have h1 := Tri.elliptic_control h hk (hfe hu)
  rw [hS]
  have p := hPsd.pen u; have g := hPsd.ghost u; have q := hPsd.h2 (m.space.lap u)
  set P := m.space.pen u u
  set G := m.space.ghost u u
  set Q := m.space.h2 (m.space.lap u) (m.space.lap u)
  refine h1.trans ?_
  unfold triConst
  set a := 2 * R * hM + 120 * R ^ 2 * hM ^ 2 / δ with ha
  set b := 4 * R ^ 4 / hm ^ 2 with hb
  set c := 120 * hM * R ^ 4 / (δ * hm) with hc
  have a0 : 0 ≤ a := by positivity
  have b0 : 0 ≤ b := by positivity
  have c0 : 0 ≤ c := by positivity
  have e : (a / C.D.lam + b + c) * (C.D.lam * P + G + Q)
      = a * P + b * Q + c * G + ((b + c) * (C.D.lam * P) + (a / C.D.lam + b) * G + (a / C.D.lam + c) * Q) := by
    field_simp; ring
  rw [e]
  have : 0 ≤ (b + c) * (C.D.lam * P) + (a / C.D.lam + b) * G + (a / C.D.lam + c) * Q := by positivity
  linarith

/-- C110 on every triangulation with continuous elements up to order 3: exactly one solution for every right-hand side, as soon as an
explicit expression in the mesh sizes, the length of the slabs and the stabilisation parameters is below `1e40`. -/
theorem C110_unique_solution (hC : C.Ok) (hS : C.S = m.space) (hind : m.Nonneg C.D.ind) (hp : C.D.Positive) (hlam : 0 < C.D.lam)
    (hN : 0 < C.D.N) {k : ℕ} (hk : k ≤ 3) (hfe : C.fe.primal ≤ m.lagrange k) (hi : C.fe.Indep) (hb : m.Bounds hm hM δ R)
    (hK : orderConst (triConst hm hM δ R C.D.lam) (hM ^ 2) C.D.dt C.D.gPrimal * ((C.D.q + 1) ^ 2 / C.D.dt)
      * ((1e-20) ^ 2 * (C.D.qstar + 1) ^ 2) < C.D.gDual * C.D.dt) {w₀ : World m.Broken} (h₀ : w₀.Fresh)
    (ops : List (Op m.Broken)) (hops : ∀ op ∈ ops, ¬ op.OtherFlag false) {A : Mat} {w₁ : World m.Broken}
    (h : getSpacetimeMatrix C false (runOps C ops w₀) = (.ok A, w₁)) :
    A.size = C.full.size ∧ A.UniquelySolvable := by
  have hPsd : C.S.Psd C.D.ind := hS ▸ m.space_psd hind
  have hd : C.S.Definite := hS ▸ m.space_definite
  exact C68_observable_unique_solution hC hPsd hd hp hi
    (C107_observable hC hPsd hd hp hlam hN (triConst_nonneg hb hlam) (sq_nonneg hM) (C110_elliptic hS hlam hk hfe hb)
      (by rw [hS]; exact fun v => (Tri.h2_le hb v).2)) hK h₀ ops hops h
end

/-- C110: the integrals over a triangle are Lebesgue integrals over the convex hull of its vertices, and `h` is its diameter, the largest
distance of two of its points. -/
theorem C110_triangles (m : Tri) (K : Fin m.n) : (∀ f g : AnaD 2, m.cellL2 K f g = ∫ x in m.tri K, f.1 x * g.1 x) ∧
    IsGreatest {r | ∃ x ∈ m.tri K, ∃ y ∈ m.tri K, r = √((y 0 - x 0) ^ 2 + (y 1 - x 1) ^ 2)} (m.diam K) := by
  refine ⟨fun f g => AnaD.triInt_volume (m.pos K) (AnaD.mul f g), ?_, ?_⟩
  · have hv : ∀ i, m.v K i ∈ m.tri K := fun i => subset_convexHull ℝ _ (by fin_cases i <;> simp)
    have he : ∀ i, ∃ x ∈ m.tri K, ∃ y ∈ m.tri K, Tri.len (m := m) (K, i) = √((y 0 - x 0) ^ 2 + (y 1 - x 1) ^ 2) :=
      fun i => ⟨_, hv i, _, hv (i + 1), rfl⟩
    simp only [Tri.diam]
    rcases max_choice (max (Tri.len (m := m) (K, 0)) (Tri.len (m := m) (K, 1))) (Tri.len (m := m) (K, 2)) with h | h <;> rw [h]
    · rcases max_choice (Tri.len (m := m) (K, 0)) (Tri.len (m := m) (K, 1)) with h | h <;> rw [h]
      · exact he 0
      · exact he 1
    · exact he 2
  · rintro _ ⟨x, hx, y, hy, rfl⟩
    exact hull_dist hx hy

/-! ## solve_2d.py -/

section
variable {m : Tri} {N : ℤ} {interp : m.Broken →ₗ[ℝ] m.Broken} {om om' : DataDomain m.Broken} {sol dsol : ℝ → m.Broken}
  {B : Built m.Broken} {C : Cfg m.Broken} {hm hM δ R : ℝ}

/-- The data of solve_2d.py with `N` slabs. -/
structure TwoDData (C : Cfg m.Broken) (N : ℤ) : Prop where
  pos : C.D.Positive
  lam : C.D.lam = 45
  dt : C.D.dt = 1 / N
  N : C.D.N = N.toNat
  q : C.D.q = 3
  qstar : C.D.qstar = 3
  primal : C.D.gPrimal = 1e-3
  dual : C.D.gDual = 1
  wp : C.D.wellPosed = false
  fw : C.D.jumpsFw = false

theorem twoD_data (hb : construct interp { Script.d2.args sol dsol with N := N } om = (.ok B, om')) (hN : 0 < N)
    (hB : C.OfBuilt B) : TwoDData C N := by
  obtain ⟨b, -, e⟩ := construct_facts hb
  have hD := hB.D
  rw [e] at hD
  have hNR : (0:ℝ) < N := by exact_mod_cast hN
  have hdt : C.D.dt = 1 / N := by rw [hD]; simp [builtOf, Script.args, Script.T]
  have hlam : C.D.lam = 45 := by rw [hD]; norm_num [builtOf, Script.args, Script.ospace, Script.order]
  have hq : C.D.q = 3 := by rw [hD]; rfl
  have hqs : C.D.qstar = 3 := by rw [hD]; rfl
  have hd : C.D.gData = 1e4 := by rw [hD]; rfl
  have hdu : C.D.gDual = 1 := by rw [hD]; rfl
  have hpr : C.D.gPrimal = 1e-3 := by rw [hD]; rfl
  have hju : C.D.gJump = 1 := by rw [hD]; rfl
  refine ⟨⟨?_, ?_, ?_, ?_, ?_, ?_, ?_⟩, hlam, hdt, by rw [hD]; rfl, hq, hqs, hpr, hdu, by rw [hD]; rfl, by rw [hD]; rfl⟩
  · rw [hdt]; positivity
  · rw [hlam]; norm_num
  · rw [hd]; norm_num
  · rw [hdu]; norm_num
  · rw [hpr]; norm_num
  · rw [hju]; norm_num
  · rw [hdu, hju, hqs]; norm_num

/-- C110 for solve_2d.py, with any triangulation, any number of slabs and any data domain: the space-time matrix has exactly one solution
for every right-hand side. -/
theorem C110_solve_2d (hb : construct interp { Script.d2.args sol dsol with N := N } om = (.ok B, om')) (hN : 0 < N)
    (hC : C.Ok) (hB : C.OfBuilt B) (hS : C.S = m.space) (hind : m.Nonneg C.D.ind) (hfe : C.fe.primal ≤ m.lagrange 3) (hi : C.fe.Indep)
    (hbd : m.Bounds hm hM δ R) (hsize : orderConst (triConst hm hM δ R 45) (hM ^ 2) (1 / N) 1e-3 * N ^ 2 ≤ 3e37)
    {w₀ : World m.Broken} (h₀ : w₀.Fresh) (ops : List (Op m.Broken))
    (hops : ∀ op ∈ ops, ¬ op.OtherFlag false) {A : Mat} {w₁ : World m.Broken}
    (h : getSpacetimeMatrix C false (runOps C ops w₀) = (.ok A, w₁)) : A.size = C.full.size ∧ A.UniquelySolvable := by
  have hD := twoD_data hb hN hB
  have hNR : (0:ℝ) < N := by exact_mod_cast hN
  refine C110_unique_solution hC hS hind hD.pos (by rw [hD.lam]; norm_num) (by rw [hD.N]; omega) le_rfl hfe hi hbd ?_ h₀ ops hops h
  rw [hD.lam, hD.dt, hD.primal, hD.q, hD.qstar, hD.dual, one_mul, lt_div_iff₀ hNR]
  set X := orderConst (triConst hm hM δ R 45) (hM ^ 2) (1 / N) 1e-3
  have e : X * ((((3:ℕ):ℝ) + 1) ^ 2 / (1 / (N:ℝ))) * ((1e-20) ^ 2 * (((3:ℕ):ℝ) + 1) ^ 2) * N = 2.56e-38 * (X * N ^ 2) := by
    norm_num; ring
  rw [e]
  norm_num at hsize ⊢
  linarith

/-- C110: what the condition amounts to for a mesh of the kind solve_2d.py uses, with edges between 1/100 and 1/8 in the unit square. -/
theorem C110_mesh_sizes (h : m.Bounds hm hM δ R) (h1 : 1 / 100 ≤ hm) (h2 : hM ≤ 1 / 8) (h3 : 1e-4 ≤ δ) (h4 : R ^ 2 ≤ 2) :
    orderConst (triConst hm hM δ R 45) (hM ^ 2) (1 / (8:ℤ)) 1e-3 ≤ 2.1e26 := by
  have hm0 := h.hm0; have hδ := h.δ0; have hR := h.R0
  have hM0 : 0 < hM := h.hm0.trans_le h.le
  have hR1 : R ≤ 2 := by nlinarith
  have hR4 : R ^ 4 ≤ 4 := by nlinarith [sq_nonneg (R ^ 2)]
  have hc0 : 0 ≤ triConst hm hM δ R 45 := triConst_nonneg h (by norm_num)
  have hc : triConst hm hM δ R 45 ≤ 6.02e7 := by
    unfold triConst
    calc (2 * R * hM + 120 * R ^ 2 * hM ^ 2 / δ) / 45 + 4 * R ^ 4 / hm ^ 2 + 120 * hM * R ^ 4 / (δ * hm)
        ≤ (2 * 2 * (1 / 8) + 120 * 2 * (1 / 8) ^ 2 / 1e-4) / 45 + 4 * 4 / (1 / 100) ^ 2 + 120 * (1 / 8) * 4 / (1e-4 * (1 / 100)) := by gcongr
      _ ≤ _ := by norm_num
  unfold orderConst
  calc _ ≤ 7 * 6.02e7 / 1e-3 * (13 + 340 * ((1 / 8) ^ 2 / (1 / ((8:ℤ):ℝ)) ^ 2)
        + 6.02e7 * ((1 / 8) ^ 2 / (1 / ((8:ℤ):ℝ)) ^ 4) * (12528 + 115200 * ((1 / 8) ^ 2 / (1 / ((8:ℤ):ℝ)) ^ 2))) := by gcongr
    _ ≤ _ := by norm_num

end

/-! ## C111 -/

/-- At the final time of solve_2d.py the wave is not small. -/
theorem final_bound2 : 2 / 25 ≤ √(Real.cos (√2 * Real.pi * 1) ^ 2 / 4) := by
  have hp := Real.pi_pos
  have s1 : (1:ℝ) ≤ √2 := Real.le_sqrt_of_sq_le (by norm_num)
  have s2 : √2 ≤ (1.415:ℝ) := by rw [Real.sqrt_le_left (by norm_num)]; norm_num
  have h1 : Real.cos (√2 * Real.pi * 1) = -Real.sin ((3 / 2 - √2) * Real.pi) := by
    rw [show √2 * Real.pi * 1 = Real.pi / 2 - (3 / 2 - √2) * Real.pi + Real.pi by ring, Real.cos_add_pi, Real.cos_pi_div_two_sub]
  have h2 : 2 / Real.pi * ((3 / 2 - √2) * Real.pi) ≤ Real.sin ((3 / 2 - √2) * Real.pi) :=
    Real.mul_le_sin (mul_nonneg (by linarith) hp.le) (by nlinarith)
  have h3 : 2 / Real.pi * ((3 / 2 - √2) * Real.pi) = 3 - 2 * √2 := by field_simp
  rw [h1, neg_sq]
  refine Real.le_sqrt_of_sq_le ?_
  have h4 : (0.16:ℝ) ≤ Real.sin ((3 / 2 - √2) * Real.pi) := by linarith
  have h5 := pow_le_pow_left₀ (by norm_num) h4 2
  linarith

/-- Two sets of errors which agree up to `1e-3` (function) and `2e-2` (time derivative). -/
def CloseReport (r s : ErrDict) : Prop :=
  |r.l2T - s.l2T| ≤ 1e-3 ∧ |r.linfU - s.linfU| ≤ 1e-3 ∧ |r.linfUt - s.linfUt| ≤ 2e-2 ∧ |r.l2l2Ut - s.l2l2Ut| ≤ 2e-2

section
variable {m : Tri} {interp : m.Broken →ₗ[ℝ] m.Broken} {ind : m.Broken} {om' : DataDomain m.Broken}
  {B : Built m.Broken} {C : Cfg m.Broken} {hm hM δ R : ℝ}

theorem tri_norm (ht : m.Tiles) (t : ℝ) : m.space.norm (m.sol2 t) = √(Real.cos (√2 * Real.pi * t) ^ 2 / 4) := by
  rw [Space.norm, Tri.sol2, ht.sines]

/-- The errors for the zero vector in `u`. -/
theorem report2_zero (hb : construct interp (Script.d2.args m.sol2 m.dsol2) (Script.d2.dataDomain ind) = (.ok B, om'))
    (ht : m.Tiles) (hB : C.OfBuilt B) (hS : C.S = m.space) {rep : ErrDict}
    (hr : Report C 0 rep) : rep.l2T = √(Real.cos (√2 * Real.pi * 1) ^ 2 / 4) ∧ rep.linfU = 1 / 2 := by
  obtain ⟨b, -, e⟩ := construct_facts hb
  have hD := hB.D
  have hT := hB.T
  have hMe : C.Meas := Meas.of_construct hb (Script.N_pos .d2) (by norm_num [Script.args, Script.T])
    ⟨hB.D, hB.T, hB.dsol, hB.samples, hB.ptsHo, hB.wsHo⟩
  rw [e] at hD hT
  have hsol : C.D.sol = m.sol2 := by rw [hD]; rfl
  have hT1 : C.T = 1 := by rw [hT]; norm_num [builtOf, Script.args, Script.T]
  have h4 : √(1 / 4) = (1 / 2 : ℝ) := by rw [Real.sqrt_eq_iff_mul_self_eq (by norm_num) (by norm_num)]; norm_num
  obtain ⟨-, -, m0, -, -⟩ := C41_samples hMe
  constructor
  · have h0 : C.node 0 (C.D.N - 1) C.D.q = 0 := by simp [Cfg.node, Cfg.u1Node, nodeAt, nodeFun]
    rw [hr.l2T, h0, norm_zero_sub, hS, hsol, hT1, tri_norm ht]
  · refine hr.linfU.unique ⟨?_, ?_⟩
    · obtain ⟨j, hj, hI⟩ := C41_covered hMe m0
      refine ⟨j, hj, 0, m0, hI, ?_⟩
      rw [(recon_zero C j 0).1, norm_zero_sub, hS, hsol, tri_norm ht, mul_zero, Real.cos_zero, one_pow, h4]
    · rintro _ ⟨j, hj, t, ht', hI, rfl⟩
      rw [(recon_zero C j t).1, norm_zero_sub, hS, hsol, tri_norm ht, ← h4]
      refine Real.sqrt_le_sqrt ?_
      have := Real.cos_sq_le_one (√2 * Real.pi * t)
      linarith

/-- The solution of the linear system is small on the slabs. -/
theorem small2_of_solution (hb : construct interp (Script.d2.args m.sol2 m.dsol2) (Script.d2.dataDomain ind) = (.ok B, om'))
    (ht : m.Tiles) (hbd : m.Bounds hm hM δ R) (hsize : orderConst (triConst hm hM δ R 45) (hM ^ 2) (1 / (8:ℤ)) 1e-3 ≤ 2.1e26)
    (hC : C.Ok) (hB : C.OfBuilt B) (hS : C.S = m.space) (hfe : C.fe.primal ≤ m.lagrange 3)
    {w₀ : World m.Broken} (h₀ : w₀.Fresh) {r : Ref} {w₁ : World m.Broken}
    (h : scriptSetup C w₀ = (.ok r, w₁)) {x : Vec} (hx : ∀ d < C.full.size, (stMatOf C false).mult x d = w₁.heap r d) :
    ∃ cd, 0 ≤ cd ∧ cd ≤ 2.1e26 ∧ C.S.Psd C.D.ind ∧
      ∑ n ∈ range C.D.N, slabSq C.S.mass C.D.q C.D.dt n (C.full.field C.fe x 0 - C.full.field C.fe 0 0) ≤ cd * 2.56e-38 := by
  have hD : TwoDData C 8 := twoD_data (N := 8) hb (by norm_num) hB
  have hind : C.D.ind = 0 := by
    obtain ⟨b, -, e⟩ := construct_facts hb
    rw [hB.D, e]
    simp [builtOf, Script.dataDomain, Script.fitted]
  have hnn : m.Nonneg C.D.ind := by
    intro K s t _ _ _
    rw [hind]; exact le_rfl
  have hPsd : C.S.Psd C.D.ind := hS ▸ m.space_psd hnn
  have hdef : C.S.Definite := hS ▸ m.space_definite
  have hN0 : 0 < C.D.N := by rw [hD.N]; norm_num
  have hlam : 0 < C.D.lam := by rw [hD.lam]; norm_num
  have hc0 : 0 ≤ triConst hm hM δ R C.D.lam := triConst_nonneg hbd hlam
  have b1 := C110_elliptic hS hlam le_rfl hfe hbd
  have b2 : ∀ v, C.S.h2 v v ≤ hM ^ 2 * C.S.mass v v := by rw [hS]; exact fun v => (Tri.h2_le hbd v).2
  have hcd0 : 0 ≤ orderConst (triConst hm hM δ R C.D.lam) (hM ^ 2) C.D.dt C.D.gPrimal :=
    orderConst_nonneg hc0 (sq_nonneg _) hD.pos.dt hD.pos.primal
  have hcd1 : orderConst (triConst hm hM δ R C.D.lam) (hM ^ 2) C.D.dt C.D.gPrimal ≤ 2.1e26 := by
    rw [hD.lam, hD.dt, hD.primal]; exact hsize
  have ho := C107_observable hC hPsd hdef hD.pos hlam hN0 hc0 (sq_nonneg hM) b1 b2
  have hctl := C107_control hC hPsd hD.pos hc0 (sq_nonneg hM) b1 b2 x 0
  set cd := orderConst (triConst hm hM δ R C.D.lam) (hM ^ 2) C.D.dt C.D.gPrimal with hcd
  have hone : C.S.mass C.S.one C.S.one = 1 := by rw [hS]; exact ht.one
  have hdt : C.D.dt = 1 / 8 := by rw [hD.dt]; norm_num
  have hE := placeholder_energy hC hPsd hD.pos ho (by
    rw [hD.dual, hdt, hD.q, hD.qstar]
    calc cd * ((((3:ℕ):ℝ) + 1) ^ 2 / (1 / 8)) * ((1e-20) ^ 2 * (((3:ℕ):ℝ) + 1) ^ 2)
        ≤ 2.1e26 * ((((3:ℕ):ℝ) + 1) ^ 2 / (1 / 8)) * ((1e-20) ^ 2 * (((3:ℕ):ℝ) + 1) ^ 2) := by gcongr
      _ ≤ _ := by norm_num) hN0 (fitted_energy hb (by simp [Script.dataDomain, Script.fitted]) rfl hC hB h₀ h x hx)
  rw [hone, hD.dual, hdt, hD.qstar] at hE
  have hE' : Spec.energy C.S C.D C.D.ind (C.full.field C.fe x - C.full.field C.fe 0) ≤ 2.56e-38 := by
    rw [field_zero, sub_zero]
    refine hE.trans (le_of_eq ?_)
    norm_num
  have hsum := hctl.trans (mul_le_mul_of_nonneg_left hE' hcd0)
  exact ⟨cd, hcd0, hcd1, hPsd, hsum⟩

theorem close2_of_solution (hb : construct interp (Script.d2.args m.sol2 m.dsol2) (Script.d2.dataDomain ind) = (.ok B, om'))
    (ht : m.Tiles) (hbd : m.Bounds hm hM δ R) (hsize : orderConst (triConst hm hM δ R 45) (hM ^ 2) (1 / (8:ℤ)) 1e-3 ≤ 2.1e26)
    (hC : C.Ok) (hB : C.OfBuilt B) (hS : C.S = m.space) (hfe : C.fe.primal ≤ m.lagrange 3)
    {w₀ : World m.Broken} (h₀ : w₀.Fresh) {r : Ref} {w₁ : World m.Broken}
    (h : scriptSetup C w₀ = (.ok r, w₁)) {x : Vec} (hx : ∀ d < C.full.size, (stMatOf C false).mult x d = w₁.heap r d)
    {rep rep0 : ErrDict} (hr : Report C x rep) (hr0 : Report C 0 rep0) : CloseReport rep rep0 := by
  have hD : TwoDData C 8 := twoD_data (N := 8) hb (by norm_num) hB
  have hMe : C.Meas := Meas.of_construct hb (Script.N_pos .d2) (by norm_num [Script.args, Script.T])
    ⟨hB.D, hB.T, hB.dsol, hB.samples, hB.ptsHo, hB.wsHo⟩
  have hdt : C.D.dt = 1 / 8 := by rw [hD.dt]; norm_num
  obtain ⟨cd, hcd0, hcd1, hPsd, hsum⟩ := small2_of_solution hb ht hbd hsize hC hB hS hfe h₀ h hx
  obtain ⟨d1, d2, d3, d4⟩ := report_diff_of hC hPsd hD.pos hsum hMe hr hr0
  rw [hdt, hD.q] at d1 d2 d3 d4
  have s1 : √(24 * (((3:ℕ):ℝ) + 1) ^ 4 * cd / (1 / 8) * 2.56e-38) ≤ 1e-3 := by
    rw [Real.sqrt_le_left (by norm_num)]
    calc _ ≤ 24 * (((3:ℕ):ℝ) + 1) ^ 4 * 2.1e26 / (1 / 8) * 2.56e-38 := by gcongr
      _ ≤ _ := by norm_num
  have s2 : √(472 * (((3:ℕ):ℝ) + 1) ^ 4 * cd / (1 / 8) ^ 3 * 2.56e-38) ≤ 2e-2 := by
    rw [Real.sqrt_le_left (by norm_num)]
    calc _ ≤ 472 * (((3:ℕ):ℝ) + 1) ^ 4 * 2.1e26 / (1 / 8) ^ 3 * 2.56e-38 := by gcongr
      _ ≤ _ := by norm_num
  have s3 : √(472 * (((3:ℕ):ℝ) + 1) ^ 4 * cd / (1 / 8) ^ 2 * 2.56e-38) ≤ 2e-2 := by
    rw [Real.sqrt_le_left (by norm_num)]
    calc _ ≤ 472 * (((3:ℕ):ℝ) + 1) ^ 4 * 2.1e26 / (1 / 8) ^ 2 * 2.56e-38 := by gcongr
      _ ≤ _ := by norm_num
  exact ⟨d1.trans s1, d2.trans s1, d3.trans s2, d4.trans s3⟩

/-- C111, full statement: on every triangulation of the unit square the error solve_2d.py reports at the final time for the solution of
its linear system is at most half of the norm of the wave it reconstructs.  False: `Example.C111_violated`. -/
def C111_statement : Prop := ∀ (m : Tri), m.Tiles → m.BdSquare → ∀ (interp : m.Broken →ₗ[ℝ] m.Broken)
    (ind : m.Broken) (B : Built m.Broken) (om' : DataDomain m.Broken) (C : Cfg m.Broken),
    construct interp (Script.d2.args m.sol2 m.dsol2) (Script.d2.dataDomain ind) = (.ok B, om') →
    C.Ok → C.OfBuilt B → C.S = m.space → C.fe = m.cg 3 3 →
    ∀ (w₀ w₁ z₀ z₁ : World m.Broken) (r : Ref) (A : Mat) (ops : List (Op m.Broken)) (x : InVec)
      (rep : ErrDict), w₀.Fresh → scriptSetup C w₀ = (.ok r, w₁) → C.Returns false A → z₀.Fresh →
    (∀ d < A.size, A.mult ((runOps C ops z₀).heap x.ref) d = w₁.heap r d) →
    measuredErrors C x.ref (runOps C ops z₀) = (.ok rep, z₁) → rep.l2T ≤ 1 / 2 * C.S.norm (C.D.sol C.T)

/-- C111, what holds: let a vector solve the linear system solve_2d.py sets up.  The errors `measured_errors` reports for it are those it
reports for the zero vector, up to `1e-3` (function) and `2e-2` (time derivative), unless the mesh is extremely fine or degenerate. -/
theorem C111_solution_partial (hb : construct interp (Script.d2.args m.sol2 m.dsol2) (Script.d2.dataDomain ind) = (.ok B, om'))
    (ht : m.Tiles) (hbd : m.Bounds hm hM δ R) (hsize : orderConst (triConst hm hM δ R 45) (hM ^ 2) (1 / (8:ℤ)) 1e-3 ≤ 2.1e26)
    (hC : C.Ok) (hB : C.OfBuilt B) (hS : C.S = m.space) (hfe : C.fe.primal ≤ m.lagrange 3)
    {w₀ : World m.Broken} (h₀ : w₀.Fresh) {r : Ref} {w₁ : World m.Broken}
    (h : scriptSetup C w₀ = (.ok r, w₁)) {A : Mat} (hA : C.Returns false A)
    {z₀ : World m.Broken} (hz : z₀.Fresh) (ops : List (Op m.Broken)) (x : InVec)
    (hx : ∀ d < A.size, A.mult ((runOps C ops z₀).heap x.ref) d = w₁.heap r d)
    {rep : ErrDict} {z₁ : World m.Broken} (hrep : measuredErrors C x.ref (runOps C ops z₀) = (.ok rep, z₁))
    {y₀ : World m.Broken} (hy : y₀.Fresh) (ops' : List (Op m.Broken)) (x' : InVec)
    (hx' : (runOps C ops' y₀).heap x'.ref = 0) {rep0 : ErrDict} {y₁ : World m.Broken}
    (hrep0 : measuredErrors C x'.ref (runOps C ops' y₀) = (.ok rep0, y₁)) :
    CloseReport rep rep0 ∧ rep0.l2T = C.S.norm (C.D.sol C.T) ∧ rep0.linfU = C.S.norm (C.D.sol 0) ∧
      2 / 25 ≤ rep0.l2T ∧ rep0.linfU = 1 / 2 := by
  have hMe : C.Meas := Meas.of_construct hb (Script.N_pos .d2) (by norm_num [Script.args, Script.T])
    ⟨hB.D, hB.T, hB.dsol, hB.samples, hB.ptsHo, hB.wsHo⟩
  have hPsd := m.space_psd (i := 0) fun K s t _ _ _ => le_rfl
  rw [hA.eq] at hx
  have h0 := C42_any_history hMe (by rw [hS]; exact hPsd.mass) hy ops' x' hrep0
  rw [hx'] at h0
  obtain ⟨r1, r2⟩ := report2_zero hb ht hB hS h0
  obtain ⟨b, -, e⟩ := construct_facts hb
  have hsol : C.D.sol = m.sol2 := by rw [hB.D, e]; rfl
  have hT1 : C.T = 1 := by rw [hB.T, e]; norm_num [builtOf, Script.args, Script.T]
  refine ⟨close2_of_solution hb ht hbd hsize hC hB hS hfe h₀ h hx (C42_any_history hMe (by rw [hS]; exact hPsd.mass) hz ops x hrep) h0,
    ?_, ?_, ?_, r2⟩
  · rw [r1, hS, hsol, hT1, tri_norm ht]
  · rw [r2, hS, hsol, tri_norm ht, mul_zero, Real.cos_zero, one_pow]
    exact ((Real.sqrt_eq_iff_mul_self_eq (by norm_num) (by norm_num)).2 (by norm_num)).symm
  · rw [r1]
    exact final_bound2

/-- C111 for the whole program, with either back end: if the vector GMRes returns solves the system, the reported errors are close to
those of the zero vector; if GMRes stops at its initial guess zero, they are exactly those. -/
theorem C111_run (hb : construct interp (Script.d2.args m.sol2 m.dsol2) (Script.d2.dataDomain ind) = (.ok B, om'))
    (ht : m.Tiles) (hbd : m.Bounds hm hM δ R) (hsize : orderConst (triConst hm hM δ R 45) (hM ^ 2) (1 / (8:ℤ)) 1e-3 ≤ 2.1e26)
    (hC : C.Ok) (hB : C.OfBuilt B) (hS : C.S = m.space) (hfe : C.fe.primal ≤ m.lagrange 3)
    {Bk : Backend} {importable : Bool} {fF fS : Vec → Vec} (h1 : Works Bk importable (slabMatOf C false) fF)
    (h2 : Works Bk importable (slabMatOf C true) fS) {K : Krylov} (hK : 0 ≤ K.reason)
    {w : World m.Broken} (h₀ : w.Fresh) (hf : w.NoFail) {rep0 : ErrDict} (hr0 : Report C 0 rep0) :
    ∃ w₀ w₁ w₂ rep, scriptSetup C w = (.ok .rhs, w₀) ∧
      computeSol C .d2 Bk K (solverType importable) .rhs w₀ = (.ok (.user K.sol), w₁) ∧
      runScript C .d2 Bk K importable w = (.ok (.user K.sol, some rep), w₂) ∧
      (∀ A, C.Returns false A → (∀ d < A.size, A.mult (w₁.heap (.user K.sol)) d = w₀.heap .rhs d) → CloseReport rep rep0) ∧
      (w₁.heap (.user K.sol) = 0 → rep = rep0) ∧ rep0.linfU = 1 / 2 ∧ 2 / 25 ≤ rep0.l2T := by
  have hMe : C.Meas := Meas.of_construct hb (Script.N_pos .d2) (by norm_num [Script.args, Script.T])
    ⟨hB.D, hB.T, hB.dsol, hB.samples, hB.ptsHo, hB.wsHo⟩
  have hD : TwoDData C 8 := twoD_data (N := 8) hb (by norm_num) hB
  have hPsd := m.space_psd (i := 0) fun K s t _ _ _ => le_rfl
  obtain ⟨r1, r2⟩ := report2_zero hb ht hB hS hr0
  obtain ⟨w₀, w₁, w₂, rep, e0, e1, e2, hr⟩ := C46_completes hC hMe (by rw [hS]; exact hPsd.mass) hD.wp hD.fw h1 h2 hK .d2 h₀ hf
  refine ⟨w₀, w₁, w₂, rep, e0, e1, e2, ?_, fun hz => ?_, r2, r1 ▸ final_bound2⟩
  · intro A hA hx
    rw [hA.eq] at hx
    exact close2_of_solution hb ht hbd hsize hC hB hS hfe h₀ e0 hx hr hr0
  · rw [hz] at hr
    exact hr.unique hr0

end
end Dxss
