import Verif.Props.PrecondApi
import Verif.Props.Apriori
import Verif.Props.Gmres
import Verif.Props.Coarse
import Mathlib.Algebra.Order.Chebyshev

/-!
# Property C79: the solution returned by GMRES

Linear systems are solved approximately.  The residual, and with the preconditioner also the preconditioned residual
that PETSc tests, bound the distance to the exact discrete solution.
-/

namespace Dxss
open Finset Gmres
set_option linter.unusedSectionVars false
variable {V : Type} [AddCommGroup V] [Module ℝ V] {C : Cfg V}

/-! ### finite linear maps are bounded -/

theorem lin_bounded {n : ℕ} {T : Vec → ℕ → ℝ} {K : ℕ → ℕ → ℝ}
    (hT : ∀ x, ∀ d < n, T x d = ∑ e ∈ range n, K d e * x e) :
    ∃ c, 0 ≤ c ∧ ∀ x, ∑ d ∈ range n, T x d ^ 2 ≤ c * ∑ e ∈ range n, x e ^ 2 := by
  refine ⟨∑ d ∈ range n, ∑ e ∈ range n, K d e ^ 2, by positivity, fun x => ?_⟩
  rw [sum_mul]
  refine sum_le_sum fun d hd => ?_
  rw [hT x d (mem_range.1 hd)]
  exact sum_mul_sq_le_sq_mul_sq _ _ _

theorem Mat.bounded (A : Mat) : ∃ c, 0 ≤ c ∧ ∀ x, ∑ d ∈ range A.size, A.mult x d ^ 2 ≤ c * ∑ d ∈ range A.size, x d ^ 2 :=
  lin_bounded (T := A.mult) (K := A.a) fun _ _ _ => rfl

theorem Mat.UniquelySolvable.bounded_below {A : Mat} (h : A.UniquelySolvable) :
    ∃ c, 0 ≤ c ∧ ∀ x, ∑ d ∈ range A.size, x d ^ 2 ≤ c * ∑ d ∈ range A.size, A.mult x d ^ 2 := by
  choose g hg using fun b => h b
  have lin : ∀ x : Vec, ∀ d < A.size, x d = ∑ e ∈ range A.size, g (unitVec e) d * A.mult x e := by
    intro x d hd
    have hy : ∀ d < A.size, A.mult (∑ e ∈ range A.size, A.mult x e • g (unitVec e)) d = A.mult x d := by
      intro d hd
      have e1 : A.mult (∑ e ∈ range A.size, A.mult x e • g (unitVec e)) d
          = ∑ e ∈ range A.size, A.mult x e * A.mult (g (unitVec e)) d := by
        simp only [Mat.mult, Finset.sum_apply, Pi.smul_apply, smul_eq_mul, mul_sum]
        rw [sum_comm]
        exact sum_congr rfl fun i _ => sum_congr rfl fun j _ => by ring
      rw [e1, sum_congr rfl fun e _ => by rw [(hg (unitVec e)).1 d hd]]
      simp [unitVec, hd]
    have h1 := (hg (A.mult x)).2 x (fun _ _ => rfl) d hd
    have h2 := (hg (A.mult x)).2 _ hy d hd
    rw [h1, ← h2, Finset.sum_apply]
    exact sum_congr rfl fun e _ => mul_comm _ _
  refine ⟨∑ d ∈ range A.size, ∑ e ∈ range A.size, g (unitVec e) d ^ 2, by positivity, fun x => ?_⟩
  rw [sum_mul]
  refine sum_le_sum fun d hd => ?_
  rw [lin x d (mem_range.1 hd)]
  exact sum_mul_sq_le_sq_mul_sq _ _ _

/-- A bilinear expression in two discrete functions, as a map of vectors, is bounded. -/
theorem field_bounded (hC : C.Ok) (B : Field V → Field V → ℝ) (hadd : ∀ U U' W, B (U + U') W = B U W + B U' W)
    (hsmul : ∀ (r : ℝ) U W, B (r • U) W = r * B U W) :
    ∃ c, 0 ≤ c ∧ ∀ x, ∑ d ∈ range C.full.size, B (C.full.field C.fe x) (C.full.field C.fe (unitVec d)) ^ 2
      ≤ c * ∑ d ∈ range C.full.size, x d ^ 2 := by
  refine lin_bounded (T := fun x d => B (C.full.field C.fe x) (C.full.field C.fe (unitVec d)))
    (K := fun d e => B (C.full.field C.fe (unitVec e)) (C.full.field C.fe (unitVec d))) fun x d _ => ?_
  let L : Field V →ₗ[ℝ] ℝ :=
    { toFun := fun U => B U (C.full.field C.fe (unitVec d)), map_add' := fun _ _ => hadd _ _ _, map_smul' := fun _ _ => hsmul _ _ _ }
  change L (C.full.field C.fe x) = _
  rw [field_eq_sum C.full C.fe hC.full x, map_sum]
  exact sum_congr rfl fun e _ => by rw [map_smul, smul_eq_mul, mul_comm]; rfl

/-! ### the energy of a discrete function is bounded by its image -/

theorem energy_residual (hC : C.Ok) (hS : C.S.Psd C.D.ind) (hd : C.S.Definite) (hp : C.D.Positive) (hi : C.fe.Indep)
    (hN : 0 < C.D.N) {K : ℝ} (ho : C.Observable K)
    (hK : K * ((1e-20) ^ 2 * (C.D.qstar + 1) ^ 2) ≤ 1e-2 * (C.D.gDual * C.D.dt)) :
    ∃ c, 0 ≤ c ∧ ∀ z, Spec.energy C.S C.D C.D.ind (C.full.field C.fe z)
      ≤ c * ∑ d ∈ range C.full.size, (stMatOf C false).mult z d ^ 2 := by
  have hg : 0 < C.D.gDual * C.D.dt := mul_pos hp.dual hp.dt
  have hu := Mat.uniquelySolvable_of_kernel (observable_kernel hC hS hd hp hi ho (hK.trans_lt (by linarith)))
  obtain ⟨c, hc, hb⟩ := hu.bounded_below
  refine ⟨1 + c, by positivity, fun z => ?_⟩
  obtain ⟨z', hz, hsq⟩ := exists_flip_sq hC.full (fe := C.fe) z
  have hpair := assemble_pair C.S C.D.ind (C.D.stForm false) C.fe C.full hC.full z z'
  rw [hz, C14_stability_identity C.S C.D hC.disc] at hpair
  have small := placeholder_small hC hS hp ho hK hN z
  rw [abs_le] at small
  have young : ∑ d ∈ range C.full.size, (assemble C.S C.D.ind C.fe C.full (C.D.stForm false)).mult z d * z' d
      ≤ ∑ d ∈ range C.full.size, (1 / 2 * (stMatOf C false).mult z d ^ 2 + 1 / 2 * z d ^ 2) := by
    refine sum_le_sum fun d _ => ?_
    rw [← hsq d]
    change (stMatOf C false).mult z d * z' d ≤ _
    nlinarith [sq_nonneg ((stMatOf C false).mult z d - z' d)]
  rw [sum_add_distrib, ← mul_sum, ← mul_sum] at young
  have hbz : ∑ d ∈ range C.full.size, z d ^ 2 ≤ c * ∑ d ∈ range C.full.size, (stMatOf C false).mult z d ^ 2 := hb z
  have hr0 : 0 ≤ ∑ d ∈ range C.full.size, (stMatOf C false).mult z d ^ 2 := by positivity
  have hE0 := C14_energy_nonneg C.S C.D C.D.ind hS hp.weights (C.full.field C.fe z)
  have h9 : 0 ≤ c * ∑ d ∈ range C.full.size, (stMatOf C false).mult z d ^ 2 := by positivity
  linarith [small.1, small.2]

/-- C79, first part: there is a constant, depending on the discretisation only, such that for every right-hand side and
every vector `x` the energy of the distance of `x` to the solution of the discrete system is at most the constant times
the square of the Euclidean norm of the residual of `x`. -/
theorem C79_residual_bounds_error (hC : C.Ok) (hS : C.S.Psd C.D.ind) (hd : C.S.Definite) (hp : C.D.Positive)
    (hi : C.fe.Indep) (hN : 0 < C.D.N) {K : ℝ} (ho : C.Observable K)
    (hK : K * ((1e-20) ^ 2 * (C.D.qstar + 1) ^ 2) ≤ 1e-2 * (C.D.gDual * C.D.dt)) :
    ∃ c, 0 ≤ c ∧ ∀ (w₀ : World V), w₀.Fresh → ∀ (ops : List (Op V)), (∀ op ∈ ops, ¬ op.OtherFlag false) →
      ∀ A w₁, getSpacetimeMatrix C false (runOps C ops w₀) = (.ok A, w₁) → ∀ b x xh : Vec,
      (∀ d < A.size, A.mult xh d = b d) →
      Spec.energy C.S C.D C.D.ind (C.full.field C.fe x - C.full.field C.fe xh)
        ≤ c * ∑ d ∈ range A.size, (b d - A.mult x d) ^ 2 := by
  obtain ⟨c, hc, h⟩ := energy_residual hC hS hd hp hi hN ho hK
  refine ⟨c, hc, fun w₀ h₀ ops hops A w₁ hA b x xh hx => ?_⟩
  obtain rfl := (C32_same_flag_partial h₀ false ops hops).1 A w₁ hA
  have hsub : C.full.field C.fe x - C.full.field C.fe xh = C.full.field C.fe (x - xh) :=
    ((fieldLin C.full C.fe).map_sub x xh).symm
  rw [hsub]
  refine (h _).trans (le_of_eq ?_)
  congr 1
  refine sum_congr rfl fun d hd => ?_
  rw [← hx d (mem_range.1 hd)]
  have : (stMatOf C false).mult (x - xh) d = (stMatOf C false).mult x d - (stMatOf C false).mult xh d := by
    simp only [Mat.mult, Pi.sub_apply, mul_sub, sum_sub_distrib]
  rw [this]; ring

/-! ### GMRES -/

/-- `f` is the map that the call `k` computes on an object `o`: for every argument there is a state of the program with
this object in which the call returns and its result is the value of `f`. -/
def Computed (C : Cfg V) (o : Obj V) (k : InVec → ℕ → Op V) (f : Vec → Vec) : Prop :=
  ∀ v : Vec, ∃ (w w' : World V) (i : InVec) (j : ℕ), w.obj = o ∧ i.ref ≠ .user j ∧
    (∀ d < C.full.size, w.heap i.ref d = v d) ∧ runOp C (k i j) w = (.ok (), w') ∧
    ∀ d < C.full.size, w'.heap (.user j) d = f v d

theorem vnorm_sq (n : ℕ) (v : Vec) : vnorm n v ^ 2 = ∑ i ∈ range n, v i ^ 2 :=
  Real.sq_sqrt (sum_nonneg fun _ _ => sq_nonneg _)

theorem computed_product (hC : C.Ok) (hN : 1 ≤ C.D.N) (hwp : C.D.wellPosed = false) (hfw : C.D.jumpsFw = false)
    {o : Obj V} (ho : MfReady C o) {op : Vec → Vec} (hop : Computed C o .apply op) (x : Vec) {d : ℕ} (hd : d < C.full.size) :
    op x d = (stMatOf C false).mult x d
      + mfPlaceholders C.S C.D (C.full.field C.fe x) (C.full.field C.fe (unitVec d)) := by
  obtain ⟨w, w', i, j, hw, hne, hv, hrun, hf⟩ := hop x
  have hi : i.ref ∉ mfScratch := by cases i <;> simp [InVec.ref, mfScratch]
  obtain ⟨w'', e, k⟩ := C17_matrix_free_product hC hN hfw hwp w (by rw [hw]; exact ho) i.ref (.user j) hi
    (by simp [mfScratch]) hne
  change applySpacetimeMatrix C i.ref (.user j) w = _ at hrun
  rw [hrun] at e
  cases e
  rw [← hf d hd, k d hd, (stMatOf C false).mult_congr hv, field_congr _ _ hC.full hv]

theorem computed_pre (hC : C.Ok) (hN : 1 ≤ C.D.N) (hfw : C.D.jumpsFw = false) {o : Obj V} {fF fS : Vec → Py Vec}
    (ho : PreReady C o fF fS) (hF : Solves fF (slabMatOf C C.D.wellPosed)) (hS : Solves fS (slabMatOf C true))
    {pre : Vec → Vec} (hpre : Computed C o .preImproved pre) (v : Vec) {d : ℕ} (hd : d < C.full.size) :
    v d = (stMatOf C true).mult (pre v) d
      + pPlaceholders C.S C.D (C.full.field C.fe (pre v)) (C.full.field C.fe (unitVec d)) := by
  obtain ⟨w, w', i, j, hw, hne, hv, hrun, hf⟩ := hpre v
  have hi : i.ref ∉ preScratch := by cases i <;> simp [InVec.ref, preScratch]
  have k := C20_time_marching_solves hC hN hfw w (by rw [hw]; exact ho) hF hS i.ref (.user j) hi
    (by simp [preScratch]) w' hrun d hd
  rw [← hv d hd, ← k, (stMatOf C true).mult_congr hf, field_congr _ _ hC.full hf]
  rfl

theorem gmres_error_aux (hC : C.Ok) (hS : C.S.Psd C.D.ind) (hd : C.S.Definite) (hp : C.D.Positive)
    (hi : C.fe.Indep) (hN : 1 ≤ C.D.N) (hwp : C.D.wellPosed = false) (hfw : C.D.jumpsFw = false) {K : ℝ}
    (ho : C.Observable K) (hK : K * ((1e-20) ^ 2 * (C.D.qstar + 1) ^ 2) ≤ 1e-2 * (C.D.gDual * C.D.dt)) :
    ∃ c, 0 ≤ c ∧ ∀ (o : Obj V) (fF fS : Vec → Py Vec), MfReady C o → PreReady C o fF fS →
      Solves fF (slabMatOf C C.D.wellPosed) → Solves fS (slabMatOf C true) → ∀ op pre : Vec → Vec,
      Computed C o .apply op → Computed C o .preImproved pre → ∀ b x xh : Vec,
      (∀ d < C.full.size, (stMatOf C false).mult xh d = b d) →
      Spec.energy C.S C.D C.D.ind (C.full.field C.fe x - C.full.field C.fe xh)
        ≤ c * (∑ d ∈ range C.full.size, pre (fun i => b i - op x i) d ^ 2
          + (1e-20) ^ 2 * ∑ d ∈ range C.full.size, x d ^ 2) := by
  obtain ⟨c₁, h1, e1⟩ := energy_residual hC hS hd hp hi hN ho hK
  obtain ⟨c₂, h2, e2⟩ := field_bounded hC (fun U W => 1e20 * mfPlaceholders C.S C.D U W) (by
    intro U U' W
    rw [← mul_add]
    congr 1
    simp only [mfPlaceholders, ← sum_add_distrib]
    refine sum_congr rfl fun n _ => ?_
    split
    · simp
    · simp only [Pi.add_apply, map_add, LinearMap.add_apply]; ring) (by
    intro r U W
    rw [mul_left_comm]
    congr 1
    simp only [mfPlaceholders, mul_sum]
    refine sum_congr rfl fun n _ => ?_
    split
    · simp
    · simp only [Pi.smul_apply, map_smul, LinearMap.smul_apply, smul_eq_mul]; ring)
  obtain ⟨c₃, h3, e3⟩ := (stMatOf C true).bounded
  obtain ⟨c₄, h4, e4⟩ := field_bounded hC (fun U W => pPlaceholders C.S C.D U W) (by
    intro U U' W
    simp only [pPlaceholders, ← sum_add_distrib]
    refine sum_congr rfl fun n _ => ?_
    split
    · simp
    · simp only [Pi.add_apply, map_add, LinearMap.add_apply]; ring) (by
    intro r U W
    simp only [pPlaceholders, mul_sum]
    refine sum_congr rfl fun n _ => ?_
    split
    · simp
    · simp only [Pi.smul_apply, map_smul, LinearMap.smul_apply, smul_eq_mul]; ring)
  refine ⟨c₁ * (4 * (c₃ + c₄) + 2 * c₂), by positivity, ?_⟩
  intro o fF fS hmf hpr hF hSl op pre hop hpre b x xh hx
  have hsub : C.full.field C.fe x - C.full.field C.fe xh = C.full.field C.fe (x - xh) :=
    ((fieldLin C.full C.fe).map_sub x xh).symm
  rw [hsub]
  refine (e1 _).trans ?_
  rw [mul_assoc]
  refine mul_le_mul_of_nonneg_left ?_ h1
  set r : Vec := fun i => b i - op x i with hr
  set p := pre r with hpdef
  -- the residual of the assembled system
  have t1 : ∑ d ∈ range C.full.size, (stMatOf C false).mult (x - xh) d ^ 2
      ≤ ∑ d ∈ range C.full.size, (2 * r d ^ 2 + 2 * ((1e-20) ^ 2
          * (1e20 * mfPlaceholders C.S C.D (C.full.field C.fe x) (C.full.field C.fe (unitVec d))) ^ 2)) := by
    refine sum_le_sum fun d hd' => ?_
    have hdlt := mem_range.1 hd'
    have hl : (stMatOf C false).mult (x - xh) d = (stMatOf C false).mult x d - (stMatOf C false).mult xh d := by
      simp only [Mat.mult, Pi.sub_apply, mul_sub, sum_sub_distrib]
    have hop' := computed_product hC hN hwp hfw hmf hop x hdlt
    have hrd : r d = b d - op x d := rfl
    set m := mfPlaceholders C.S C.D (C.full.field C.fe x) (C.full.field C.fe (unitVec d))
    have e : (stMatOf C false).mult (x - xh) d = -(r d) - m := by rw [hl, hx d hdlt, hrd, hop']; ring
    have e' : ((1e-20 : ℝ)) ^ 2 * (1e20 * m) ^ 2 = m ^ 2 := by
      rw [mul_pow, ← mul_assoc]; norm_num
    rw [e, e']
    nlinarith [sq_nonneg (r d - m)]
  have t2 : ∑ d ∈ range C.full.size, r d ^ 2 ≤ ∑ d ∈ range C.full.size, (2 * (stMatOf C true).mult p d ^ 2
      + 2 * pPlaceholders C.S C.D (C.full.field C.fe p) (C.full.field C.fe (unitVec d)) ^ 2) := by
    refine sum_le_sum fun d hd' => ?_
    rw [computed_pre hC hN hfw hpr hF hSl hpre r (mem_range.1 hd')]
    nlinarith [sq_nonneg ((stMatOf C true).mult p d - pPlaceholders C.S C.D (C.full.field C.fe p) (C.full.field C.fe (unitVec d)))]
  rw [sum_add_distrib, ← mul_sum, ← mul_sum, ← mul_sum] at t1
  rw [sum_add_distrib, ← mul_sum, ← mul_sum] at t2
  have e3' : ∑ d ∈ range C.full.size, (stMatOf C true).mult p d ^ 2 ≤ c₃ * ∑ d ∈ range C.full.size, p d ^ 2 := e3 p
  have e4' := e4 p
  have e2' := mul_le_mul_of_nonneg_left (e2 x) (by norm_num : (0:ℝ) ≤ (1e-20) ^ 2)
  have P0 : 0 ≤ ∑ d ∈ range C.full.size, p d ^ 2 := by positivity
  have X0 : 0 ≤ ∑ d ∈ range C.full.size, x d ^ 2 := by positivity
  generalize (∑ d ∈ range C.full.size, p d ^ 2) = Pp at *
  generalize (∑ d ∈ range C.full.size, x d ^ 2) = Xx at *
  have q1 : 0 ≤ c₂ * Pp := by positivity
  have q2 : 0 ≤ (c₃ + c₄) * ((1e-20) ^ 2 * Xx) := by positivity
  linarith

/-- C79, GMRES: there is a constant, depending on the discretisation only, such that the following holds for every run.
The object is prepared by the documented calls, the two slab solvers solve systems with the matrices handed out by
`get_slab_matrix_first_slab()` and `get_slab_matrix()`, the wrappers pass the matrix-free product and the
time-marching preconditioner to `get_gmres_solution`.  If that function returns `x`, then the energy of the distance of
`x` to the exact solution of the system with the matrix of `get_spacetime_matrix()` is at most the constant times the
square of the tolerance reached, plus the effect of the `1e-20` entries. -/
theorem C79_gmres_error (hC : C.Ok) (hS : C.S.Psd C.D.ind) (hd : C.S.Definite) (hp : C.D.Positive)
    (hi : C.fe.Indep) (hN : 1 ≤ C.D.N) (hwp : C.D.wellPosed = false) (hfw : C.D.jumpsFw = false) {K : ℝ}
    (ho : C.Observable K) (hK : K * ((1e-20) ^ 2 * (C.D.qstar + 1) ^ 2) ≤ 1e-2 * (C.D.gDual * C.D.dt)) :
    ∃ c, 0 ≤ c ∧
      -- the object and its slab solvers
      ∀ (w₀ : World V) (ops ops₁ ops₂ : List (Op V)) (A₁ A₂ : Mat) (w₁ w₂ : World V) (fF fS : Vec → Py Vec),
      w₀.Fresh → w₀.NoFail →
      getSlabMatrixFirst (runOps C ops₁ w₀) = (.ok (some A₁), w₁) →
      getSlabMatrix C (runOps C ops₂ w₀) = (.ok (some A₂), w₂) →
      SolversSet C ops fF fS → Solves fF A₁ → Solves fS A₂ →
      -- the two maps handed to GMRES
      ∀ op pre : Vec → Vec, Computed C (runOps C (.setupFE :: .prepare :: ops) w₀).obj .apply op →
      Computed C (runOps C (.setupFE :: .prepare :: ops) w₀).obj .preImproved pre →
      -- the assembled matrix
      ∀ (v₀ : World V) (opsA : List (Op V)) (A : Mat) (v₁ : World V), v₀.Fresh → (∀ o ∈ opsA, ¬ o.OtherFlag false) →
      getSpacetimeMatrix C false (runOps C opsA v₀) = (.ok A, v₁) →
      -- the call
      ∀ (P : Petsc) (b : Vec) (maxsteps : ℤ) (tol : Option ℝ) (restart : Option ℤ) (printrates : Bool) (reltol : Option ℝ)
        (s s' : GSt) (x r : Vec), TestsConvergence P →
      (∀ k db out, P.solve k db b = .ok out → 0 ≤ out.reason → out.reason = 2 ∨ out.reason = 3) →
      ValidTol (orDefault reltol 1e-7) (orDefault tol 1e-12) maxsteps → NoOverride s.db →
      getGmresSolution P op C.full.size b pre maxsteps tol restart printrates reltol s = (.ok (x, r), s') →
      ∀ xh : Vec, (∀ d < A.size, A.mult xh d = b d) →
      Spec.energy C.S C.D C.D.ind (C.full.field C.fe x - C.full.field C.fe xh)
        ≤ c * (max (orDefault reltol 1e-7 * vnorm C.full.size (pre b)) (orDefault tol 1e-12) ^ 2
          + (1e-20) ^ 2 * vnorm C.full.size x ^ 2) := by
  obtain ⟨c, hc, h⟩ := gmres_error_aux hC hS hd hp hi hN hwp hfw ho hK
  refine ⟨c, hc, ?_⟩
  intro w₀ ops ops₁ ops₂ A₁ A₂ w₁ w₂ fF fS h₀ hf hA₁ hA₂ hs hF hSl op pre hop hpre v₀ opsA A v₁ g₀ hopsA hA P b
    maxsteps tol restart printrates reltol s s' x r hP hreason hv hno hrun xh hx
  rw [getSlabMatrixFirst_eq h₀ ops₁ hA₁] at hF
  rw [getSlabMatrix_eq h₀ ops₂ hA₂] at hSl
  obtain ⟨hmf, hpr⟩ := documented_ready hwp h₀ hf hs
  obtain rfl := (C32_same_flag_partial g₀ false opsA hopsA).1 A v₁ hA
  refine (h _ fF fS hmf hpr hF hSl op pre hop hpre b x xh hx).trans (mul_le_mul_of_nonneg_left ?_ hc)
  have ht := C44_tolerance P op C.full.size b pre maxsteps tol restart printrates reltol hP hreason hv hno hrun
  rw [← vnorm_sq, ← vnorm_sq]
  have h0 : 0 ≤ vnorm C.full.size (pre fun i => b i - op x i) := Real.sqrt_nonneg _
  gcongr

/-- The energy is a quadratic form. -/
theorem energy_add_le (hC : C.Ok) (hS : C.S.Psd C.D.ind) (hp : C.D.Positive) (U W : Field V) :
    Spec.energy C.S C.D C.D.ind (U + W) ≤ 2 * Spec.energy C.S C.D C.D.ind U + 2 * Spec.energy C.S C.D C.D.ind W := by
  have id := C14_stability_identity C.S C.D hC.disc C.D.ind
  have k := C14_energy_nonneg C.S C.D C.D.ind hS hp.weights (U - W)
  let B := formBilin C.S C.D.ind (C.D.stForm false)
  have hB : ∀ U W, evalForm C.S C.D.ind (C.D.stForm false) U W = B U W := fun _ _ => rfl
  have fa : ∀ U W : Field V, Spec.flipDual (U + W) = Spec.flipDual U + Spec.flipDual W := by
    intro U W; funext c i; simp only [Spec.flipDual, Pi.add_apply]; split <;> abel
  have fs : ∀ U W : Field V, Spec.flipDual (U - W) = Spec.flipDual U - Spec.flipDual W := by
    intro U W; funext c i; simp only [Spec.flipDual, Pi.sub_apply]; split <;> abel
  have i1 := id (U + W)
  have i2 := id (U - W)
  have i3 := id U
  have i4 := id W
  rw [hB, fa] at i1
  rw [hB, fs] at i2
  rw [hB] at i3 i4
  simp only [map_add, map_sub, LinearMap.add_apply, LinearMap.sub_apply, Pi.add_apply, Pi.sub_apply] at i1 i2
  linarith

/-- C79, end to end: the solution returned by GMRES approximates the wave.  The energy of its distance to any discrete
primal pair is bounded by the distance of that pair to the wave (as in C71) and by the square of the tolerance. -/
theorem C79_error_estimate {interp : V →ₗ[ℝ] V} {a : Args V} {om om' : DataDomain V} {B : Built V}
    (hb : construct interp a om = (.ok B, om')) (hC : C.Ok) (hB : C.OfBuilt B) (hS : C.S.Psd C.D.ind)
    (hdef : C.S.Definite) (hp : C.D.Positive) (hlam : 0 < C.D.lam) (hi : C.fe.Indep) (hN : 1 ≤ C.D.N)
    (hwp : C.D.wellPosed = false) (hfw : C.D.jumpsFw = false)
    {K : ℝ} (ho : C.Observable K) (hK : K * ((1e-20) ^ 2 * (C.D.qstar + 1) ^ 2) ≤ 1e-2 * (C.D.gDual * C.D.dt))
    {G : V → ℝ} (hG0 : ∀ v, 0 ≤ G v) (hG : ∀ v y, C.S.nit v y ^ 2 ≤ G v * C.S.pen y y)
    {u : Spec.Path V} (hu : Spec.WaveSolution C.S C.fe.dual u (Set.Icc 0 (C.D.N * C.D.dt))) (hdata : ∀ t, C.D.sol t = u.u1 t) :
    ∃ c, 0 ≤ c ∧
      -- the object, its slab solvers and the two maps handed to GMRES
      ∀ (w₀ : World V) (ops ops₁ ops₂ : List (Op V)) (A₁ A₂ : Mat) (w₁ w₂ : World V) (fF fS : Vec → Py Vec),
      w₀.Fresh → w₀.NoFail →
      getSlabMatrixFirst (runOps C ops₁ w₀) = (.ok (some A₁), w₁) →
      getSlabMatrix C (runOps C ops₂ w₀) = (.ok (some A₂), w₂) →
      SolversSet C ops fF fS → Solves fF A₁ → Solves fS A₂ →
      ∀ op pre : Vec → Vec, Computed C (runOps C (.setupFE :: .prepare :: ops) w₀).obj .apply op →
      Computed C (runOps C (.setupFE :: .prepare :: ops) w₀).obj .preImproved pre →
      -- the right-hand side
      ∀ (v₀ : World V) (opsb : List (Op V)) (ref : Ref) (v₁ : World V), v₀.Fresh → v₀.NoFail →
      (∀ o ∈ opsb, ¬ o.WritesInitial) →
      getSpacetimeRhs C (runOps C (.setupFE :: .setInitial (u.u1 0) (u.u2 0) :: opsb) v₀) = (.ok ref, v₁) →
      -- the call
      ∀ (P : Petsc) (maxsteps : ℤ) (tol : Option ℝ) (restart : Option ℤ) (printrates : Bool) (reltol : Option ℝ)
        (s s' : GSt) (x r : Vec), TestsConvergence P →
      (∀ k db out, P.solve k db (v₁.heap ref) = .ok out → 0 ≤ out.reason → out.reason = 2 ∨ out.reason = 3) →
      ValidTol (orDefault reltol 1e-7) (orDefault tol 1e-12) maxsteps → NoOverride s.db →
      getGmresSolution P op C.full.size (v₁.heap ref) pre maxsteps tol restart printrates reltol s = (.ok (x, r), s') →
      -- the comparison function
      ∀ (Q : ℕ → (ℝ → ℝ) → ℝ), (∀ n < C.D.N, RuleOnSlab B.qr C.D.dt n (Q n)) → ∀ xs : Vec,
      (∀ i, C.full.field C.fe xs 2 i = 0) → (∀ i, C.full.field C.fe xs 3 i = 0) →
      (∀ n < C.D.N, IntervalIntegrable (Spec.distDens C.S C.D G u (C.full.field C.fe xs) n) MeasureTheory.volume
        (n * C.D.dt) ((n + 1 : ℕ) * C.D.dt)) →
      let X := C.full.field C.fe x
      let Xs := C.full.field C.fe xs
      Spec.energy C.S C.D C.D.ind (X - Xs)
        ≤ 6 * Spec.dist C.S C.D C.D.ind G Q u Xs
          + 12 * ((2e-5) ^ 2 * ∑ n ∈ range C.D.N, C.D.gData *
                Spec.slabInt C.D.dt n (fun t => C.S.omega C.D.ind (Spec.val C.D.q C.D.dt n (Xs 0) t) (Spec.val C.D.q C.D.dt n (Xs 0) t))
            + (1e-20) ^ 2 * (C.D.qstar + 1) ^ 2 / (C.D.gDual * C.D.dt) * C.S.mass (C.S.one - Xs 0 0) (C.S.one - Xs 0 0))
          + c * (max (orDefault reltol 1e-7 * vnorm C.full.size (pre (v₁.heap ref))) (orDefault tol 1e-12) ^ 2
            + (1e-20) ^ 2 * vnorm C.full.size x ^ 2) := by
  obtain ⟨c, hc, h⟩ := C79_gmres_error hC hS hdef hp hi hN hwp hfw ho hK
  refine ⟨2 * c, by positivity, ?_⟩
  intro w₀ ops ops₁ ops₂ A₁ A₂ w₁ w₂ fF fS h₀ hf hA₁ hA₂ hs hF hSl op pre hop hpre v₀ opsb ref v₁ g₀ gf hopsb hrhs P
    maxsteps tol restart printrates reltol s s' x r hP hreason hv hno hrun Q hQ xs hX2 hX3 hint X Xs
  have hg : 0 < C.D.gDual * C.D.dt := mul_pos hp.dual hp.dt
  -- the exact discrete solution
  have hmat : ∃ v₂, getSpacetimeMatrix C false (runOps C [.setupFE] (⟨{}, fun _ => 0, fun _ => false, 0⟩ : World V))
      = (.ok (stMatOf C false), v₂) := Example.getMatrix_ok C false fun _ => 0
  obtain ⟨v₂, hmat⟩ := hmat
  obtain ⟨xh, hxh, -⟩ := Mat.uniquelySolvable_of_kernel
    (observable_kernel hC hS hdef hp hi ho (hK.trans_lt (by linarith))) (v₁.heap ref)
  have e1 := h w₀ ops ops₁ ops₂ A₁ A₂ w₁ w₂ fF fS h₀ hf hA₁ hA₂ hs hF hSl op pre hop hpre
    ⟨{}, fun _ => 0, fun _ => false, 0⟩ [.setupFE] _ v₂ rfl (by simp [Op.OtherFlag]) hmat P _ maxsteps tol restart printrates reltol s s' x r hP hreason hv hno hrun xh hxh
  have e2 := C71_error_estimate hb hC hB hS hp hlam hN ho hK hG0 hG hu hdata g₀ gf opsb [.setupFE] hopsb hrhs
    (v₀ := ⟨{}, fun _ => 0, fun _ => false, 0⟩) rfl (by simp [Op.OtherFlag]) hmat hQ xh xs hxh hX2 hX3 hint
  have e3 := energy_add_le hC hS hp (X - C.full.field C.fe xh) (C.full.field C.fe xh - Xs)
  rw [sub_add_sub_cancel] at e3
  simp only at e2
  change Spec.energy C.S C.D C.D.ind (C.full.field C.fe xh - Xs) ≤ _ at e2
  rw [mul_assoc]
  generalize c * (max (orDefault reltol 1e-7 * vnorm C.full.size (pre (v₁.heap ref))) (orDefault tol 1e-12) ^ 2
            + (1e-20) ^ 2 * vnorm C.full.size x ^ 2) = g at *
  linarith

/-- C79, the maps exist: on an object that has been prepared, with slab solvers that never raise, both wrappers compute a
map. -/
theorem C79_maps_exist (hC : C.Ok) (hwp : C.D.wellPosed = false) (hfw : C.D.jumpsFw = false) {w₀ : World V}
    (h₀ : w₀.Fresh) (hf : w₀.NoFail) (ops : List (Op V)) {fF fS : Vec → Py Vec} (hs : SolversSet C ops fF fS)
    (hF : Total fF) (hS : Total fS) :
    ∃ op pre, Computed C (runOps C (.setupFE :: .prepare :: ops) w₀).obj .apply op ∧
      Computed C (runOps C (.setupFE :: .prepare :: ops) w₀).obj .preImproved pre := by
  obtain ⟨h1, h2⟩ := documented_ready hwp h₀ hf hs
  set o := (runOps C (.setupFE :: .prepare :: ops) w₀).obj
  let W : Vec → World V := fun v => ⟨o, fun _ => v, fun _ => false, 0⟩
  refine ⟨fun v => (runOp C (.apply (.user 0) 1) (W v)).2.heap (.user 1),
    fun v => (runOp C (.preImproved (.user 0) 1) (W v)).2.heap (.user 1), fun v => ?_, fun v => ?_⟩
  · obtain ⟨w', e, -⟩ := apply_run hC (w := W v) h1 (show Ref.user 0 ∉ mfScratch by simp [mfScratch])
      (show Ref.user 1 ∉ mfScratch by simp [mfScratch])
    exact ⟨W v, (runOp C (.apply (.user 0) 1) (W v)).2, .user 0, 1, rfl, by simp [InVec.ref], fun _ _ => rfl,
      Prod.ext (show (applySpacetimeMatrix C (.user 0) (.user 1) (W v)).1 = .ok () by rw [e]) rfl, fun _ _ => rfl⟩
  · have ho := preImproved_run hC (w := W v) h2 (show Ref.user 0 ∉ preScratch by simp [preScratch])
      (show Ref.user 1 ∉ preScratch by simp [preScratch]) hfw
    refine ⟨W v, _, .user 0, 1, rfl, by simp [InVec.ref], fun _ _ => rfl, Prod.ext ?_ rfl, fun _ _ => rfl⟩
    change (preTimeMarchingImproved C (.user 0) (.user 1) (W v)).1 = .ok ()
    obtain ⟨-, -, -, -, hm⟩ := ho
    rcases hr : (preTimeMarchingImproved C (.user 0) (.user 1) (W v)).1 with e | u
    · rw [hr] at hm
      obtain ⟨n, -, he, -⟩ := hm
      obtain ⟨u, hu⟩ := march_total (C := C) (l₀ := 0) (ln := carry C) hF hS ((W v).heap (.user 0)) n
      rw [hu] at he; cases he
    · rfl

/-! ## Non-vacuity -/

namespace Example

theorem built3f : ∃ B, construct LinearMap.id { args3 with parameters := ⟨false, false⟩ } ⟨(1, 0, 0), false⟩
      = (.ok B, ⟨(1, 0, 0), false⟩) ∧
    (cfg3 B).Ok ∧ (cfg3 B).OfBuilt B ∧ B.D.Positive ∧ B.D.ind = (1, 0, 0) ∧ B.D.wellPosed = false ∧ B.D.jumpsFw = false ∧
    B.D.N = 2 ∧ B.D.dt = 1 / 2 ∧ B.D.q = 1 ∧ B.D.qstar = 1 ∧ B.D.gDual = 1 ∧ B.D.gData = 1e4 ∧ B.D.gPrimal = 1e-3 ∧
    B.D.lam = 5 ∧ B.D.sol = wave3.u1 := by
  obtain ⟨b, -, e⟩ := construct_run (interp := LinearMap.id) (a := { args3 with parameters := ⟨false, false⟩ })
    (om := ⟨(1, 0, 0), false⟩) (by simp [args3]) args3_supported
  have hdt : (builtOf LinearMap.id { args3 with parameters := ⟨false, false⟩ } ⟨(1, 0, 0), false⟩ b).D.dt = 1 / 2 := by
    simp [builtOf, args3]
  refine ⟨_, e, ?_, ?_, ?_, rfl, rfl, rfl, rfl, hdt, rfl, rfl, rfl, rfl, rfl, by norm_num [builtOf, args3], rfl⟩
  · exact ⟨⟨getElmatTime_ok (by simp [cfg3, builtOf, args3]) (by simp [cfg3, builtOf, args3]),
      by change _ ≠ _; rw [cfg3, hdt]; norm_num⟩, stdSpace_ok _ _, rfl,
      stdSpace_ok _ _, rfl, stdSpace_ok _ _, rfl, stdSpace_ok _ _, rfl⟩
  · constructor <;> simp [cfg3, builtOf, QuadRule.currentPts, QuadRule.tWeights, gaussRadau]
  · constructor <;> norm_num [builtOf, args3]

open Classical in
/-- A PETSc that reports success exactly if some vector meets the absolute tolerance, and returns such a vector. -/
noncomputable def petscA : Petsc where
  parseReal _ := some 0.5
  parseInt _ := some 7
  parseBool str := if str = "true" then some true else none
  solve k _ b :=
    if h : ∃ x, ∀ p, k.pc = some p → vnorm k.size (p fun i => b i - k.op x i) ≤ k.atol then
      .ok { reason := 3, its := 1, x := h.choose }
    else .ok { reason := -3, its := 1, x := 0 }
  residual k _ b out := fun i => b i - k.op out.x i

theorem petscA_tests : TestsConvergence petscA := by
  constructor
  · intro k db b out p h h2
    simp only [petscA] at h
    split at h <;> (cases h; norm_num at h2)
  · intro k db b out p h h3 _ hp
    simp only [petscA] at h
    split at h
    · rename_i hx
      cases h
      exact hx.choose_spec p hp
    · cases h; norm_num at h3

theorem petscA_reason {b : Vec} (k db) (out : KspOut) (h : petscA.solve k db b = .ok out) (h0 : 0 ≤ out.reason) :
    out.reason = 2 ∨ out.reason = 3 := by
  simp only [petscA] at h
  split at h
  · cases h; exact .inr rfl
  · cases h; norm_num at h0

theorem omega_one (u : V3) : modeSpace.omega (1, 0, 0) u u = modeSpace.mass u u := by
  change ∫ x in (0:ℝ)..1, (ι (1, 0, 0)).1 x * (ι u).1 x * (ι u).1 x = ∫ x in (0:ℝ)..1, (ι u).1 x * (ι u).1 x
  simp [ι_apply]

/-- C79 applies to the standing wave, two slabs, data on the whole domain, no initial values: everything from the
constructor to the return of GMRES succeeds, and the estimate holds with one constant for all tolerances that the
solver can meet and all comparison functions. -/
example : ∃ (B : Built V3) (c : ℝ) (op pre : Vec → Vec) (v₁ : World V3), 0 ≤ c ∧
    getSpacetimeRhs (cfg3 B) (runOps (cfg3 B) [.setupFE, .setInitial (wave3.u1 0) (wave3.u2 0)] (freshWorld fun _ => 0))
      = (.ok .rhs, v₁) ∧
    ∀ tol : ℝ, vnorm (cfg3 B).full.size (pre fun i => v₁.heap .rhs i - op 0 i) ≤ tol →
      ∃ x r s', getGmresSolution petscA op (cfg3 B).full.size (v₁.heap .rhs) pre 100 (some tol) none true none Gmres.Example.s0
        = (.ok (x, r), s') ∧
      ∃ Q : ℕ → (ℝ → ℝ) → ℝ, (∀ n, RuleOnSlab B.qr (1 / 2) n (Q n)) ∧ ∀ xs,
        let X := (cfg3 B).full.field fe3 x
        let Xs := (cfg3 B).full.field fe3 xs
        (∀ i, Xs 2 i = 0) → (∀ i, Xs 3 i = 0) →
        Spec.energy modeSpace B.D B.D.ind (X - Xs)
          ≤ 6 * Spec.dist modeSpace B.D B.D.ind flux3 Q wave3 Xs
            + 12 * ((2e-5) ^ 2 * ∑ n ∈ range B.D.N, B.D.gData *
                  Spec.slabInt B.D.dt n (fun t => modeSpace.omega B.D.ind (Spec.val B.D.q B.D.dt n (Xs 0) t)
                    (Spec.val B.D.q B.D.dt n (Xs 0) t))
              + (1e-20) ^ 2 * (B.D.qstar + 1) ^ 2 / (B.D.gDual * B.D.dt)
                  * modeSpace.mass (modeSpace.one - Xs 0 0) (modeSpace.one - Xs 0 0))
            + c * (max (1e-7 * vnorm (cfg3 B).full.size (pre (v₁.heap .rhs))) tol ^ 2
              + (1e-20) ^ 2 * vnorm (cfg3 B).full.size x ^ 2) := by
  obtain ⟨B, hb, hC, hO, hP, hi, hwp, hfw, hN, hdt, hq, hqs, hgd, hga, hgp, hlam, hsol⟩ := built3f
  have hi' : (cfg3 B).D.ind = (1, 0, 0) := hi
  have hS : (cfg3 B).S.Psd (cfg3 B).D.ind := by rw [hi']; exact modeSpace_psd
  have hN' : 0 < (cfg3 B).D.N := by change 0 < B.D.N; rw [hN]; norm_num
  have hdet : (cfg3 B).Determined 1e-4 := by
    intro u _
    change modeSpace.mass u u ≤ 1e-4 * (B.D.gData * modeSpace.omega B.D.ind u u + B.D.gPrimal * (B.D.lam * modeSpace.pen u u + 0))
    have p := modeSpace_psd.pen u
    rw [hi, omega_one, hga, hgp, hlam]
    linarith
  have hobs := C68_full_data_observe hC hS modeSpace_definite hP (by norm_num) hdet hN'
  have hobs₁ := C68_full_data_observe hC.firstSlab hS modeSpace_definite
    (⟨hP.dt, hP.lam, hP.data, hP.dual, hP.primal, hP.jump, hP.dominates⟩ : (cfg3 B).firstSlab.D.Positive)
    (c := 1e-4) (by norm_num) hdet Nat.one_pos
  have hK : 1e-4 * (((cfg3 B).D.q + 1) ^ 2 / (cfg3 B).D.dt) * ((1e-20 : ℝ) ^ 2 * ((cfg3 B).D.qstar + 1) ^ 2)
      ≤ 1e-2 * ((cfg3 B).D.gDual * (cfg3 B).D.dt) := by
    change 1e-4 * (((B.D.q : ℝ) + 1) ^ 2 / B.D.dt) * ((1e-20) ^ 2 * ((B.D.qstar : ℝ) + 1) ^ 2) ≤ 1e-2 * (B.D.gDual * B.D.dt)
    rw [hq, hdt, hqs, hgd]; norm_num
  obtain ⟨A₁, A₂, w₁, w₂, h1, h2, -, -⟩ := C78_matrices_available (C := cfg3 B) (freshWorld_fresh fun _ => 0)
    (freshWorld_noFail _) []
  obtain ⟨u1, u2⟩ := C78_solvers_exist hC hS modeSpace_definite hP hfw fe3_indep hwp hobs₁
    (hK.trans_lt (by
      change 1e-2 * (B.D.gDual * B.D.dt) < B.D.gDual * B.D.dt
      rw [hgd, hdt]; norm_num)) (freshWorld_fresh _) (freshWorld_fresh _) _ _ h1 h2
  choose fF hF using u1
  choose fS hS₂ using u2
  obtain ⟨ops, hs⟩ : ∃ ops, SolversSet (cfg3 B) ops (fun r => .ok (fF r)) (fun r => .ok (fS r)) :=
    ⟨[.setSolverFirst (solverOf fun r => .ok (fF r)), .setSolverSlab (solverOf fun r => .ok (fS r))],
      ⟨solverOf fun r => .ok (fF r), by simp⟩, ⟨solverOf fun r => .ok (fS r), by simp⟩,
      fun s hs => by simp at hs; subst hs; exact solverOf_computes _ _,
      fun s hs => by simp at hs; subst hs; exact solverOf_computes _ _⟩
  obtain ⟨op, pre, hop, hpre⟩ := C79_maps_exist hC hwp hfw (freshWorld_fresh fun _ => 0) (freshWorld_noFail _) ops hs
    (fun b => ⟨_, rfl⟩) (fun b => ⟨_, rfl⟩)
  obtain ⟨v₁, hr⟩ := getRhs_after (cfg3 B) (fun _ => 0) (wave3.u1 0) (wave3.u2 0) []
  obtain ⟨c, hc, key⟩ := C79_error_estimate hb hC hO hS modeSpace_definite hP
    (by change 0 < B.D.lam; rw [hlam]; norm_num) fe3_indep hN' hwp hfw hobs hK
    (G := flux3) (fun v => by unfold flux3; positivity) flux3_bound (wave3_solution _ _) (fun t => congrFun hsol t)
  refine ⟨B, c, op, pre, v₁, hc, hr, fun tol htol => ?_⟩
  have ht0 : 0 ≤ tol := le_trans (Real.sqrt_nonneg _) htol
  have hv : ValidTol (orDefault none 1e-7) (orDefault (some tol) 1e-12) 100 := by
    refine ⟨by norm_num [orDefault], by norm_num [orDefault], by simpa [orDefault] using ht0, by norm_num⟩
  obtain ⟨k, db, ho, hsz, hp, -, -, -, -, hat, -, -, -, h⟩ := C44_iff petscA op (cfg3 B).full.size (v₁.heap .rhs) pre 100
    (some tol) none true none (s := Gmres.Example.s0) (by simp [orDefault]) hv (fun _ _ => rfl) (by simp [petscA])
  have hex : ∃ x, ∀ p, k.pc = some p → vnorm k.size (p fun i => v₁.heap .rhs i - k.op x i) ≤ k.atol := by
    refine ⟨0, fun p hp' => ?_⟩
    rw [hp] at hp'
    cases hp'
    rw [ho, hsz, hat]
    exact htol
  obtain ⟨x, r, s', hrun⟩ := h.2 ⟨_, by simp only [petscA]; rw [dif_pos hex], by norm_num⟩
  choose Q hQ using exists_ruleOnSlab (construct_qr hb).1 (1 / 2)
  refine ⟨x, r, s', hrun, Q, hQ, ?_⟩
  intro xs X Xs hX2 hX3
  exact key (freshWorld fun _ => 0) ops _ _ A₁ A₂ w₁ w₂ _ _ (freshWorld_fresh _) (freshWorld_noFail _) h1 h2 hs
    (fun r u h e he => by cases h; exact (hF r).1 e he) (fun r u h e he => by cases h; exact (hS₂ r).1 e he) op pre hop hpre
    (freshWorld fun _ => 0) [] .rhs v₁ (freshWorld_fresh _) (freshWorld_noFail _) (by simp) hr petscA 100 (some tol) none true
    none Gmres.Example.s0 s' x r petscA_tests petscA_reason hv (show NoOverride Gmres.Example.s0.db from fun _ _ => rfl) hrun Q
    (fun n _ => by rw [show (cfg3 B).D.dt = 1 / 2 from hdt]; exact hQ n) xs hX2 hX3
    (fun n _ => (distDens_cont hC.disc _ n).intervalIntegrable _ _)

end Example
end Dxss
