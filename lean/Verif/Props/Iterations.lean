import Verif.Lemmas.ProductKernel
import Verif.Props.CallerVectors

/-!
# Property C84: how far the preconditioner inverts the matrix-free product

The preconditioner differs from the matrix in the rows of the values at the end of each slab, and there only in the
jump terms.
-/

namespace Dxss
open Finset Module Gmres
set_option linter.unusedSectionVars false
variable {V : Type} [AddCommGroup V] [Module ℝ V] {C : Cfg V}

/-! ### products with jumps -/

theorem field_comb (L : FSpace) (fe : FE V) (x : Vec) (c : Fin 4) (i : ℤ) :
    ∃ a : ℕ → ℝ, L.field fe x c i = ∑ s ∈ range (fe.m c), a s • fe.basis c s := by
  unfold FSpace.field
  split
  · exact ⟨_, rfl⟩
  · exact ⟨0, by simp⟩

theorem lowerTerms_iff (hC : C.Ok) (hd : C.S.Definite) (hp : C.D.Positive) (x : Vec) :
    (∀ d < C.full.size, lowerTerms C.S C.D (C.full.field C.fe x) (C.full.field C.fe (unitVec d)) = 0) ↔
    ∀ n, 0 < n → n < C.D.N →
      Spec.jump C.D.q C.D.dt n (C.full.field C.fe x 1) = 0 ∧ ∀ s < C.fe.m 0,
        C.D.gJump * (1 / C.D.dt * C.S.mass (Spec.jump C.D.q C.D.dt n (C.full.field C.fe x 0)) (C.fe.basis 0 s)
            + C.D.dt * C.S.stiff (Spec.jump C.D.q C.D.dt n (C.full.field C.fe x 0)) (C.fe.basis 0 s))
          = 1e-20 * C.S.mass (Spec.val C.D.q C.D.dt (n - 1) (C.full.field C.fe x 0) (n * C.D.dt)) (C.fe.basis 0 s) := by
  set U := C.full.field C.fe x with hU
  have hdt := hp.dt
  have je : ∀ n, 0 < n → ∀ F : ℤ → V, Spec.jump C.D.q C.D.dt n F = F (n * (C.D.q + 1)) - F (n * (C.D.q + 1) - 1) :=
    fun n hn F => jump_eq hC.disc n hn F
  have te : ∀ n, 0 < n → ∀ F : ℤ → V, Spec.val C.D.q C.D.dt (n - 1) F (n * C.D.dt) = F (n * (C.D.q + 1) - 1) :=
    fun n hn F => val_top hC.disc.hq hdt.ne' hn F
  constructor
  · intro h n h0 hn
    rw [je n h0, je n h0, te n h0]
    constructor
    · have h1 : ∀ s < C.fe.m 1, C.S.mass (U 1 (n * (C.D.q + 1)) - U 1 (n * (C.D.q + 1) - 1)) (C.fe.basis 1 s) = 0 := by
        intro s hs
        have := h _ (hC.full.lt 1 _ s (lowerIx_lt hC 1 (.inr rfl) h0 hn) hs)
        rw [lowerTerms_dof hC U 1 (.inr rfl) h0 hn hs] at this
        simp only [lowerAt, Spec.jumpForm, if_true, show ¬ (1 : Fin 4) = 0 by decide, if_false, map_zero, mul_zero, add_zero,
          zero_add, sub_zero] at this
        have := (mul_eq_zero.1 this).resolve_left hp.jump.ne'
        exact (mul_eq_zero.1 this).resolve_left (by positivity)
      obtain ⟨a, ha⟩ := field_comb C.full C.fe x 1 (n * (C.D.q + 1))
      obtain ⟨b, hb⟩ := field_comb C.full C.fe x 1 (n * (C.D.q + 1) - 1)
      refine hd.mass _ ?_
      have e : U 1 (n * (C.D.q + 1)) - U 1 (n * (C.D.q + 1) - 1)
          = ∑ s ∈ range (C.fe.m 1), (a s - b s) • C.fe.basis 1 s := by
        rw [hU, ha, hb, ← sum_sub_distrib]
        exact sum_congr rfl fun s _ => (sub_smul _ _ _).symm
      conv_lhs => arg 2; rw [e]
      rw [map_sum]
      exact sum_eq_zero fun s hs => by rw [map_smul, h1 s (mem_range.1 hs), smul_zero]
    · intro s hs
      have := h _ (hC.full.lt 0 _ s (lowerIx_lt hC 0 (.inl rfl) h0 hn) hs)
      rw [lowerTerms_dof hC U 0 (.inl rfl) h0 hn hs] at this
      simp only [lowerAt, Spec.jumpForm, if_true, show ¬ (0 : Fin 4) = 1 by decide, if_false, map_zero, mul_zero, add_zero]
        at this
      linarith
  · intro h d hd
    by_cases hl : IsLower C d
    · obtain ⟨c, hc, n, s, h0, hn, hs, rfl⟩ := hl
      obtain ⟨h1, h2⟩ := h n h0 hn
      rw [lowerTerms_dof hC U c hc h0 hn hs]
      rw [je n h0] at h1
      rcases hc with rfl | rfl
      · have := h2 s hs
        rw [je n h0, te n h0] at this
        simp only [lowerAt, Spec.jumpForm, if_true, show ¬ (0 : Fin 4) = 1 by decide, if_false, map_zero, mul_zero, add_zero]
        linarith
      · simp [lowerAt, Spec.jumpForm, h1]
    · exact lowerTerms_zero hC U hl

/-! ### one application of the preconditioner -/

/-- C84: the object is prepared by the documented calls, the two slab solvers solve systems with the matrices that
were handed out, and these are non-singular.  The vector `x` is multiplied with the matrix, `y = A x`, and the
preconditioner is applied to `y`.  Both calls return; the result is `x` if and only if, at every interface between two
slabs, the second component of `x` has no jump and the jump of the first one is balanced by the `1e-20` entry of the
coupling matrix. -/
theorem C84_recovers_iff (hC : C.Ok) (hd : C.S.Definite) (hp : C.D.Positive) (hN : 1 ≤ C.D.N)
    (hwp : C.D.wellPosed = false) (hfw : C.D.jumpsFw = false) {w₀ w₀' w₀'' : World V} (h₀ : w₀.Fresh) (hf : w₀.NoFail)
    (h₀' : w₀'.Fresh) (h₀'' : w₀''.Fresh) (ops ops₁ ops₂ : List (Op V)) {A₁ A₂ : Mat} {w₁ w₂ : World V}
    (hA₁ : getSlabMatrixFirst (runOps C ops₁ w₀') = (.ok (some A₁), w₁))
    (hA₂ : getSlabMatrix C (runOps C ops₂ w₀'') = (.ok (some A₂), w₂))
    (u₁ : A₁.UniquelySolvable) (u₂ : A₂.UniquelySolvable)
    {fF fS : Vec → Py Vec} (hs : SolversSet C ops fF fS) (hF : Solves fF A₁) (hSl : Solves fS A₂)
    (rF : ∀ r, ∃ u, fF r = .ok u) (rS : ∀ r, ∃ u, fS r = .ok u) (x : InVec) (y z : ℕ) (hne : x.ref ≠ .user y) :
    let w := runOps C (.setupFE :: .prepare :: ops) w₀
    let w' := (runOp C (.apply x y) w).2
    let w'' := (runOp C (.preImproved (.user y) z) w').2
    let U := C.full.field C.fe (w.heap x.ref)
    (runOp C (.apply x y) w).1 = .ok () ∧ (runOp C (.preImproved (.user y) z) w').1 = .ok () ∧
    ((∀ d < C.full.size, w''.heap (.user z) d = w.heap x.ref d) ↔ ∀ n, 0 < n → n < C.D.N →
      Spec.jump C.D.q C.D.dt n (U 1) = 0 ∧ ∀ s < C.fe.m 0,
        C.D.gJump * (1 / C.D.dt * C.S.mass (Spec.jump C.D.q C.D.dt n (U 0)) (C.fe.basis 0 s)
            + C.D.dt * C.S.stiff (Spec.jump C.D.q C.D.dt n (U 0)) (C.fe.basis 0 s))
          = 1e-20 * C.S.mass (Spec.val C.D.q C.D.dt (n - 1) (U 0) (n * C.D.dt)) (C.fe.basis 0 s)) := by
  intro w w' w'' U
  rw [getSlabMatrixFirst_eq h₀' ops₁ hA₁] at hF u₁
  rw [getSlabMatrix_eq h₀'' ops₂ hA₂] at hSl u₂
  obtain ⟨hmf, -⟩ := documented_ready hwp h₀ hf hs
  have hi : x.ref ∉ mfScratch := by cases x <;> simp [InVec.ref, mfScratch]
  obtain ⟨v, e, k⟩ := C17_matrix_free_product hC hN hfw hwp w hmf x.ref (.user y) hi (by simp [mfScratch]) hne
  have ev : w' = v := by
    show (runOp C (.apply x y) w).2 = v
    exact congrArg Prod.snd e
  have hs' : SolversSet C (ops ++ [.apply x y]) fF fS := by
    obtain ⟨s1, m1⟩ := hs.first
    obtain ⟨s2, m2⟩ := hs.slab
    exact ⟨⟨s1, by simp [m1]⟩, ⟨s2, by simp [m2]⟩, fun s h => hs.computesFirst s (by simpa using h),
      fun s h => hs.computesSlab s (by simpa using h)⟩
  have hw' : w' = runOps C (.setupFE :: .prepare :: (ops ++ [.apply x y])) w₀ := by
    rw [← List.cons_append, ← List.cons_append, runOps_append]
    rfl
  have hpr := (documented_ready hwp h₀ hf hs').2
  rw [← hw'] at hpr
  obtain ⟨v', e'⟩ := C20_returns hC hfw w' hpr rF rS (.user y) (.user z) (by simp [preScratch]) (by simp [preScratch])
  have ev' : w'' = v' := by
    show (runOp C (.preImproved (.user y) z) w').2 = v'
    exact congrArg Prod.snd e'
  have k' := C20_time_marching_solves hC hN hfw w' hpr hF hSl (.user y) (.user z) (by simp [preScratch])
    (by simp [preScratch]) v' e'
  refine ⟨congrArg Prod.fst e, congrArg Prod.fst e', ?_⟩
  rw [← lowerTerms_iff hC hd hp]
  have eq : ∀ d < C.full.size, pAll C (w''.heap (.user z)) d = mfAll C (w.heap x.ref) d := by
    intro d hd
    have h1 := k' d hd
    have h2 := k d hd
    rw [ev, h2] at h1
    rw [ev']
    exact h1
  constructor
  · intro h d hd
    have h1 := eq d hd
    rw [pAll_congr hC h, mfAll_eq hC _ hd] at h1
    linarith
  · intro h
    refine pAll_inj hC hN hfw u₁.kernel u₂.kernel fun d hd => ?_
    rw [eq d hd, mfAll_eq hC _ hd, h d hd, sub_zero]

/-- C84, the size of the jumps: if `x` comes back, then the jump of the first component of `x` at every interface is at
most `1e-20 dt / γ` times the value before the interface (`γ` the weight of the jumps; norms of `L²`). -/
theorem C84_recovered_jumps_tiny (hC : C.Ok) (hS : C.S.Psd C.D.ind) (hp : C.D.Positive) (x : Vec) {n : ℕ}
    (h : ∀ s < C.fe.m 0,
        C.D.gJump * (1 / C.D.dt * C.S.mass (Spec.jump C.D.q C.D.dt n (C.full.field C.fe x 0)) (C.fe.basis 0 s)
            + C.D.dt * C.S.stiff (Spec.jump C.D.q C.D.dt n (C.full.field C.fe x 0)) (C.fe.basis 0 s))
          = 1e-20 * C.S.mass (Spec.val C.D.q C.D.dt (n - 1) (C.full.field C.fe x 0) (n * C.D.dt)) (C.fe.basis 0 s))
    (h0 : 0 < n) :
    let j := Spec.jump C.D.q C.D.dt n (C.full.field C.fe x 0)
    let u := Spec.val C.D.q C.D.dt (n - 1) (C.full.field C.fe x 0) (n * C.D.dt)
    C.S.mass j j ≤ (1e-20 * C.D.dt / C.D.gJump) ^ 2 * C.S.mass u u := by
  intro j u
  have hdt := hp.dt; have hg := hp.jump
  obtain ⟨a, ha⟩ := field_comb C.full C.fe x 0 (n * (C.D.q + 1))
  obtain ⟨b, hb⟩ := field_comb C.full C.fe x 0 (n * (C.D.q + 1) - 1)
  have e : j = ∑ s ∈ range (C.fe.m 0), (a s - b s) • C.fe.basis 0 s := by
    show Spec.jump C.D.q C.D.dt n (C.full.field C.fe x 0) = _
    rw [jump_eq hC.disc n h0, ha, hb, ← sum_sub_distrib]
    exact sum_congr rfl fun s _ => (sub_smul _ _ _).symm
  have key : C.D.gJump * (1 / C.D.dt * C.S.mass j j + C.D.dt * C.S.stiff j j) = 1e-20 * C.S.mass u j := by
    have t : ∀ B : V →ₗ[ℝ] ℝ, B j = ∑ s ∈ range (C.fe.m 0), (a s - b s) * B (C.fe.basis 0 s) := by
      intro B
      conv_lhs => rw [e]
      rw [map_sum]
      exact sum_congr rfl fun s _ => by rw [map_smul, smul_eq_mul]
    rw [t (C.S.mass j), t (C.S.stiff j), t (C.S.mass u), mul_sum, mul_sum, mul_sum, ← sum_add_distrib, mul_sum]
    refine sum_congr rfl fun s hs => ?_
    have := h s (mem_range.1 hs)
    linear_combination (a s - b s) * this
  have hcs := mass_cauchy hS u j
  have mj := hS.mass j; have mu := hS.mass u; have sj := hS.stiff j
  have le : C.D.gJump * C.S.mass j j ≤ 1e-20 * C.D.dt * C.S.mass u j := by
    have := mul_le_mul_of_nonneg_left (le_of_eq key) hdt.le
    have e2 : C.D.dt * (C.D.gJump * (1 / C.D.dt * C.S.mass j j + C.D.dt * C.S.stiff j j))
        = C.D.gJump * C.S.mass j j + C.D.gJump * (C.D.dt ^ 2 * C.S.stiff j j) := by field_simp
    rw [e2] at this
    have p : 0 ≤ C.D.gJump * (C.D.dt ^ 2 * C.S.stiff j j) := by positivity
    linarith
  rcases mj.eq_or_lt with hz | hpos
  · rw [← hz]; positivity
  · have h1 : (C.D.gJump * C.S.mass j j) ^ 2 ≤ (1e-20 * C.D.dt * C.S.mass u j) ^ 2 :=
      pow_le_pow_left₀ (by positivity) le 2
    have h2 : (C.D.gJump ^ 2 * C.S.mass j j) * C.S.mass j j ≤ ((1e-20 * C.D.dt) ^ 2 * C.S.mass u u) * C.S.mass j j := by
      have := mul_le_mul_of_nonneg_left hcs (by positivity : 0 ≤ (1e-20 * C.D.dt) ^ 2)
      nlinarith
    have h3 := le_of_mul_le_mul_right h2 hpos
    rw [div_pow, div_mul_eq_mul_div, le_div_iff₀ (by positivity)]
    linarith

/-! ### iterating the two -/

/-- The vectors GMRES works with: `v₀ = pre(b)`, `v₁ = pre(A v₀)`, … -/
def kry (op pre : Vec → Vec) (b : Vec) : ℕ → Vec
  | 0 => pre b
  | i + 1 => pre (op (kry op pre b i))

/-- The number of coefficients of the two components at the ends of the slabs before an interface. -/
def Cfg.skeleton (C : Cfg V) : ℕ := (C.D.N - 1) * (C.fe.m 0 + C.fe.m 1)

theorem krylov_solution (hC : C.Ok) (hN : 1 ≤ C.D.N) (hfw : C.D.jumpsFw = false)
    (h1 : (slabMatOf C C.D.wellPosed).TrivialKernel) (h2 : (slabMatOf C true).TrivialKernel)
    (hker : ∀ x, (∀ d < C.full.size, mfAll C x d = 0) → ∀ d < C.full.size, x d = 0) {op pre : Vec → Vec}
    (hop : ∀ x, ∀ d < C.full.size, op x d = mfAll C x d) (hpre : ∀ v, ∀ d < C.full.size, pAll C (pre v) d = v d) (b : Vec) :
    ∃ a : ℕ → ℝ, ∀ d < C.full.size,
      op (fun e => ∑ i ∈ range (C.skeleton + 1), a i * kry op pre b i e) d = b d := by
  let n := C.full.size
  let ext0 : (Fin n → ℝ) → Vec := fun v d => if hd : d < n then v ⟨d, hd⟩ else 0
  let res : Vec → Fin n → ℝ := fun x i => x i
  have ea : ∀ v w, ext0 (v + w) = ext0 v + ext0 w := by
    intro v w; funext d; by_cases hd : d < n <;> simp [ext0, hd]
  have es : ∀ (r : ℝ) v, ext0 (r • v) = r • ext0 v := by
    intro r v; funext d; by_cases hd : d < n <;> simp [ext0, hd]
  have er : ∀ x, ∀ d < n, ext0 (res x) d = x d := by
    intro x d hd; simp [ext0, res, hd]
  have re : ∀ v, res (ext0 v) = v := by
    intro v; funext i; simp [ext0, res]
  let P : (Fin n → ℝ) →ₗ[ℝ] (Fin n → ℝ) :=
    { toFun := fun v i => pAll C (ext0 v) i
      map_add' := fun v w => by funext i; rw [ea, pAll_add]; rfl
      map_smul' := fun r v => by funext i; rw [es, pAll_smul]; rfl }
  let A : (Fin n → ℝ) →ₗ[ℝ] (Fin n → ℝ) :=
    { toFun := fun v i => mfAll C (ext0 v) i
      map_add' := fun v w => by funext i; rw [ea, mfAll_add]; rfl
      map_smul' := fun r v => by funext i; rw [es, mfAll_smul]; rfl }
  have zero_of : ∀ v, (∀ d < n, ext0 v d = 0) → v = 0 := by
    intro v hv
    funext i
    have := hv i i.2
    simpa [ext0] using this
  have hP : Function.Injective P := by
    refine (injective_iff_map_eq_zero P).2 fun v hv => zero_of v ?_
    exact pAll_kernel hC hN hfw h1 h2 fun d hd => congrFun hv ⟨d, hd⟩
  have hA : Function.Injective A := by
    refine (injective_iff_map_eq_zero A).2 fun v hv => zero_of v ?_
    exact hker _ fun d hd => congrFun hv ⟨d, hd⟩
  let Q := LinearEquiv.ofInjectiveEndo P hP
  have hQ : ∀ v, Q v = P v := fun _ => rfl
  let T : (Fin n → ℝ) →ₗ[ℝ] (Fin n → ℝ) := Q.symm.toLinearMap ∘ₗ A
  have hT : Function.Injective T := Q.symm.injective.comp hA
  let R := (Submodule.span ℝ (lowerUnits C : Set (Fin n → ℝ))).map Q.symm.toLinearMap
  have hR : finrank ℝ R ≤ C.skeleton := by
    refine (Submodule.finrank_map_le _ _).trans ?_
    exact (finrank_span_finset_le_card (lowerUnits C)).trans (lowerUnits_card C)
  have hTR : ∀ v, T v - v ∈ R := by
    intro v
    refine ⟨A v - P v, mem_lowerUnits fun d hd => ?_, ?_⟩
    · show mfAll C (ext0 v) d - pAll C (ext0 v) d = 0
      rw [mfAll_eq hC _ d.2, lowerTerms_zero hC _ hd]
      ring
    · show Q.symm (A v - P v) = Q.symm (A v) - v
      rw [map_sub, ← hQ, LinearEquiv.symm_apply_apply]
  obtain ⟨a, ha⟩ := krylov_low_rank T hT R hR hTR (res (pre b))
  -- the program computes the iterates
  have hpre' : ∀ v, res (pre v) = Q.symm (res v) := by
    intro v
    rw [LinearEquiv.eq_symm_apply, hQ]
    funext i
    show pAll C (ext0 (res (pre v))) i = v i
    rw [pAll_congr hC (er _)]
    exact hpre v i i.2
  have hop' : ∀ v, res (op v) = A (res v) := by
    intro v
    funext i
    show op v i = mfAll C (ext0 (res v)) i
    rw [mfAll_congr hC (er _)]
    exact hop v i i.2
  have hk : ∀ i, res (kry op pre b i) = (T ^ i) (res (pre b)) := by
    intro i
    induction i with
    | zero => rfl
    | succ i ih =>
      rw [pow_succ', Module.End.mul_apply, ← ih, kry, hpre', hop']
      rfl
  refine ⟨a, fun d hd => ?_⟩
  set x : Vec := fun e => ∑ i ∈ range (C.skeleton + 1), a i * kry op pre b i e with hx
  have hsum : res x = ∑ i ∈ range (C.skeleton + 1), a i • (T ^ i) (res (pre b)) := by
    funext j
    rw [Finset.sum_apply]
    refine sum_congr rfl fun i _ => ?_
    rw [Pi.smul_apply, ← hk, smul_eq_mul]
  have h3 : Q.symm (A (res x)) = Q.symm (res b) := by
    rw [← hpre', ← ha, ← hsum]
    rfl
  have h4 := Q.symm.injective h3
  rw [← hop'] at h4
  exact congrFun h4 ⟨d, hd⟩

/-- C84, the number of steps: the object is prepared by the documented calls, the two slab solvers solve systems with the
matrices handed out, and these are non-singular; the data observe the states.  Then for every right-hand side the
vectors `pre(b)`, `pre(A pre(b))`, … span the solution of the system `A x = b` that GMRES is asked to solve after as many
steps as there are interface unknowns, plus one, whatever the size of the system. -/
theorem C84_finite_termination (hC : C.Ok) (hS : C.S.Psd C.D.ind) (hd : C.S.Definite) (hp : C.D.Positive)
    (hi : C.fe.Indep) (hN : 1 ≤ C.D.N) (hwp : C.D.wellPosed = false) (hfw : C.D.jumpsFw = false) {K : ℝ}
    (ho : C.ObservableAll K) (hK : K * ((1e-20 * C.D.N) ^ 2 * (C.D.qstar + 1) ^ 2) < C.D.gDual * C.D.dt)
    {w₀ w₀' w₀'' : World V} (h₀ : w₀.Fresh) (hf : w₀.NoFail) (h₀' : w₀'.Fresh) (h₀'' : w₀''.Fresh)
    (ops ops₁ ops₂ : List (Op V)) {A₁ A₂ : Mat} {w₁ w₂ : World V}
    (hA₁ : getSlabMatrixFirst (runOps C ops₁ w₀') = (.ok (some A₁), w₁))
    (hA₂ : getSlabMatrix C (runOps C ops₂ w₀'') = (.ok (some A₂), w₂))
    (u₁ : A₁.UniquelySolvable) (u₂ : A₂.UniquelySolvable)
    {fF fS : Vec → Py Vec} (hs : SolversSet C ops fF fS) (hF : Solves fF A₁) (hSl : Solves fS A₂) {op pre : Vec → Vec}
    (hop : Computed C (runOps C (.setupFE :: .prepare :: ops) w₀).obj .apply op)
    (hpre : Computed C (runOps C (.setupFE :: .prepare :: ops) w₀).obj .preImproved pre) (b : Vec) :
    ∃ a : ℕ → ℝ, ∀ d < C.full.size,
      op (fun e => ∑ i ∈ range ((C.D.N - 1) * (C.fe.m 0 + C.fe.m 1) + 1), a i * kry op pre b i e) d = b d := by
  rw [getSlabMatrixFirst_eq h₀' ops₁ hA₁] at hF u₁
  rw [getSlabMatrix_eq h₀'' ops₂ hA₂] at hSl u₂
  obtain ⟨hmf, hpr⟩ := documented_ready hwp h₀ hf hs
  exact krylov_solution hC hN hfw u₁.kernel u₂.kernel (fun x hx => mfAll_kernel hC hS hd hp hi hN ho hK hx)
    (fun x d hd => computed_product hC hN hwp hfw hmf hop x hd)
    (fun v d hd => (computed_pre hC hN hfw hpr hF hSl hpre v hd).symm) b

/-- GMRES in exact arithmetic, for one system: it returns after at most `max_it` steps; it gives up only when all steps
are used and the tolerances are not reached; as long as it has not been restarted, its result has the smallest
preconditioned residual in the space spanned so far. -/
structure ExactGmres (P : Petsc) (op pre : Vec → Vec) (n : ℕ) (b : Vec) : Prop where
  returns : ∀ k db, k.op = op → k.size = n → k.pc = some pre → ∃ out, P.solve k db b = .ok out
  gives_up : ∀ k db out, k.op = op → k.size = n → k.pc = some pre → P.solve k db b = .ok out → out.reason < 0 →
    (out.its : ℤ) = k.maxIt ∧ max (k.rtol * vnorm n (pre b)) k.atol < vnorm n (pre fun i => b i - op out.x i)
  minimal : ∀ k db out, k.op = op → k.size = n → k.pc = some pre → P.solve k db b = .ok out → (out.its : ℤ) ≤ k.restart →
    ∀ a : ℕ → ℝ, vnorm n (pre fun i => b i - op out.x i)
      ≤ vnorm n (pre fun i => b i - op (fun e => ∑ l ∈ range out.its, a l * kry op pre b l e) i)

/-- C84, GMRES: under the same conditions, if `get_gmres_solution` may use more steps than there are interface unknowns
and no restart happens before, it returns instead of raising. -/
theorem C84_gmres_returns (hC : C.Ok) (hS : C.S.Psd C.D.ind) (hd : C.S.Definite) (hp : C.D.Positive)
    (hi : C.fe.Indep) (hN : 1 ≤ C.D.N) (hwp : C.D.wellPosed = false) (hfw : C.D.jumpsFw = false) {K : ℝ}
    (ho : C.ObservableAll K) (hK : K * ((1e-20 * C.D.N) ^ 2 * (C.D.qstar + 1) ^ 2) < C.D.gDual * C.D.dt)
    {w₀ w₀' w₀'' : World V} (h₀ : w₀.Fresh) (hf : w₀.NoFail) (h₀' : w₀'.Fresh) (h₀'' : w₀''.Fresh)
    (ops ops₁ ops₂ : List (Op V)) {A₁ A₂ : Mat} {w₁ w₂ : World V}
    (hA₁ : getSlabMatrixFirst (runOps C ops₁ w₀') = (.ok (some A₁), w₁))
    (hA₂ : getSlabMatrix C (runOps C ops₂ w₀'') = (.ok (some A₂), w₂))
    (u₁ : A₁.UniquelySolvable) (u₂ : A₂.UniquelySolvable)
    {fF fS : Vec → Py Vec} (hs : SolversSet C ops fF fS) (hF : Solves fF A₁) (hSl : Solves fS A₂) {op pre : Vec → Vec}
    (hop : Computed C (runOps C (.setupFE :: .prepare :: ops) w₀).obj .apply op)
    (hpre : Computed C (runOps C (.setupFE :: .prepare :: ops) w₀).obj .preImproved pre) (b : Vec)
    {P : Petsc} (hP : ExactGmres P op pre C.full.size b) (hb : P.parseBool "true" = some true)
    (maxsteps : ℤ) (tol : Option ℝ) (restart : Option ℤ) (printrates : Bool) (reltol : Option ℝ) {s : GSt}
    (hv : ValidTol (orDefault reltol 1e-7) (orDefault tol 1e-12) maxsteps) (hno : NoOverride s.db)
    (hsteps : ((C.D.N - 1) * (C.fe.m 0 + C.fe.m 1) : ℕ) < maxsteps) (hrestart : maxsteps ≤ orDefault restart 1000) :
    ∃ x r s', getGmresSolution P op C.full.size b pre maxsteps tol restart printrates reltol s = (.ok (x, r), s') := by
  obtain ⟨k, db, ko, ks, kp, -, -, km, krt, kat, kr, -, -, iff⟩ := C44_iff P op C.full.size b pre maxsteps tol restart
    printrates reltol (s := s) (by omega) hv hno hb
  refine iff.2 ?_
  obtain ⟨out, hout⟩ := hP.returns k db ko ks kp
  refine ⟨out, hout, ?_⟩
  by_contra hneg
  obtain ⟨hits, hres⟩ := hP.gives_up k db out ko ks kp hout (by omega)
  obtain ⟨a, ha⟩ := C84_finite_termination hC hS hd hp hi hN hwp hfw ho hK h₀ hf h₀' h₀'' ops ops₁ ops₂ hA₁ hA₂ u₁ u₂ hs
    hF hSl hop hpre b
  have hmin := hP.minimal k db out ko ks kp hout (by rw [hits, km, kr]; exact hrestart)
    (fun l => if l < (C.D.N - 1) * (C.fe.m 0 + C.fe.m 1) + 1 then a l else 0)
  have hlt : (C.D.N - 1) * (C.fe.m 0 + C.fe.m 1) + 1 ≤ out.its := by
    have : (out.its : ℤ) = maxsteps := by rw [hits, km]
    omega
  have hx : (fun e => ∑ l ∈ range out.its, (if l < (C.D.N - 1) * (C.fe.m 0 + C.fe.m 1) + 1 then a l else 0)
        * kry op pre b l e)
      = fun e => ∑ i ∈ range ((C.D.N - 1) * (C.fe.m 0 + C.fe.m 1) + 1), a i * kry op pre b i e := by
    funext e
    rw [← sum_subset (range_subset_range.2 hlt)]
    · exact sum_congr rfl fun l hl => by rw [if_pos (mem_range.1 hl)]
    · intro l _ hl
      rw [if_neg (fun h => hl (mem_range.2 h)), zero_mul]
  rw [hx] at hmin
  obtain ⟨hmf, hpr⟩ := documented_ready hwp h₀ hf hs
  rw [getSlabMatrixFirst_eq h₀' ops₁ hA₁] at hF u₁
  rw [getSlabMatrix_eq h₀'' ops₂ hA₂] at hSl u₂
  have hz : ∀ v : Vec, (∀ d < C.full.size, v d = 0) → vnorm C.full.size (pre v) = 0 := by
    intro v hv
    have := pAll_kernel hC hN hfw u₁.kernel u₂.kernel (x := pre v) fun d hd =>
      (computed_pre hC hN hfw hpr hF hSl hpre v hd).symm.trans (hv d hd)
    rw [vnorm, sum_eq_zero fun d hd => by rw [this d (mem_range.1 hd)]; ring, Real.sqrt_zero]
  have hz' := hz (fun i => b i - op (fun e => ∑ i ∈ range ((C.D.N - 1) * (C.fe.m 0 + C.fe.m 1) + 1),
    a i * kry op pre b i e) i) fun d hd => by rw [ha d hd, sub_self]
  rw [hz'] at hmin
  have h0 : 0 ≤ max (k.rtol * vnorm C.full.size (pre b)) k.atol := by
    refine le_max_of_le_right ?_
    rw [kat]; exact hv.2.2.1
  linarith

/-! ## Non-vacuity -/

namespace Example

/-- C84 on two slabs: a vector with a jump of the second component is not recovered, a coefficient of the multiplier is. -/
example : ∃ ops : List (Op V3), ∀ heap : Ref → Vec,
    let w := runOps (cfgSin discSin) (.setupFE :: .prepare :: ops) (freshWorld heap)
    let w' := (runOp (cfgSin discSin) (.apply (.user 0) 1) w).2
    let w'' := (runOp (cfgSin discSin) (.preImproved (.user 1) 2) w').2
    (heap (.user 0) = unitVec ((cfgSin discSin).full.dof 1 1 0) → ∃ d < 32, w''.heap (.user 2) d ≠ heap (.user 0) d) ∧
    (heap (.user 0) = unitVec ((cfgSin discSin).full.dof 2 1 0) → ∀ d < 32, w''.heap (.user 2) d = heap (.user 0) d) := by
  obtain ⟨A₁, A₂, w₁, w₂, P, v₁, fF, fS, h1, h2, hP, hF, hS⟩ := cfgSin_solvers fun _ => 0
  obtain ⟨u1, u2⟩ := C78_solvers_exist cfgSin_ok modeSpace_psd modeSpace_definite discSin_positive rfl feSin_indep rfl
    cfgSin_first_observable (by norm_num [cfgSin, discSin]) (freshWorld_fresh _) (freshWorld_fresh _) _ _ h1 h2
  obtain ⟨ops, hs, hout⟩ : ∃ ops, SolversSet (cfgSin discSin) ops (fun r => .ok (fF r)) (fun r => .ok (fS r)) ∧
      ∀ o ∈ ops, o.output ≠ some 0 := ⟨_, sinSolvers_set fF fS, by simp [Op.output]⟩
  refine ⟨ops, ?_⟩
  intro heap w w' w''
  obtain ⟨-, -, iff⟩ := C84_recovers_iff cfgSin_ok modeSpace_definite discSin_positive
    (by norm_num [cfgSin, discSin]) rfl rfl (freshWorld_fresh heap) (freshWorld_noFail heap) (freshWorld_fresh _)
    (freshWorld_fresh _) _ _ _ h1 h2 u1 u2 hs hF hS (fun r => ⟨_, rfl⟩) (fun r => ⟨_, rfl⟩) (.user 0) 1 2
    (by simp [InVec.ref])
  have hw : w.heap (.user 0) = heap (.user 0) := C80_history _ (by
    intro o ho
    rcases List.mem_cons.1 ho with rfl | ho
    · simp [Op.output]
    rcases List.mem_cons.1 ho with rfl | ho
    · simp [Op.output]
    exact hout o ho) _
  have hN : (cfgSin discSin).D.N = 2 := rfl
  constructor
  · intro hx
    by_contra hcon
    push Not at hcon
    have hj := (iff.1 (fun d hd => (hcon d hd).trans (congrFun hw.symm d)) 1 one_pos (by rw [hN]; norm_num)).1
    rw [jump_eq cfgSin_ok.disc 1 one_pos] at hj
    simp only [InVec.ref] at hj
    have hw2 : (runOps (cfgSin discSin) (.setupFE :: .prepare :: ops) (freshWorld heap)).heap (.user 0) = _ := hw.trans hx
    rw [hw2, field_unit cfgSin_ok (by simp [cfgSin, stdSpace, fullSizes]) (by simp [cfgSin, feSin, FE.m]),
      field_unit cfgSin_ok (by simp [cfgSin, stdSpace, fullSizes]) (by simp [cfgSin, feSin, FE.m])] at hj
    norm_num [cfgSin, discSin, feSin, FE.basis] at hj
  · intro hx
    refine fun d hd => (iff.2 (fun n h0 hn => ?_) d hd).trans (congrFun hw d)
    have hw2 : (runOps (cfgSin discSin) (.setupFE :: .prepare :: ops) (freshWorld heap)).heap (.user 0) = _ := hw.trans hx
    have z : ∀ c : Fin 4, c = 0 ∨ c = 1 → (cfgSin discSin).full.field (cfgSin discSin).fe
        (unitVec ((cfgSin discSin).full.dof 2 1 0)) c = fun _ => 0 := by
      intro c hc
      funext i
      rw [field_unit cfgSin_ok (by simp [cfgSin, stdSpace, fullSizes]) (by simp [cfgSin, feSin, FE.m])]
      rcases hc with rfl | rfl <;> simp
    simp only [InVec.ref]
    rw [hw2, z 0 (.inl rfl), z 1 (.inr rfl)]
    simp [Spec.jump, Spec.val]

/-- A PETSc which hands out a given vector after `m` steps if it is allowed so many. -/
def petscX (m : ℕ) (x : Vec) : Petsc where
  parseReal _ := some 0.5
  parseInt _ := some 7
  parseBool str := if str = "true" then some true else none
  solve k _ _ := if (m : ℤ) ≤ k.maxIt then .ok { reason := 3, its := m, x := x } else .ok { reason := 2, its := 0, x := fun _ => 0 }
  residual k _ b out := fun i => b i - k.op out.x i

/-- C84: two slabs, three coefficients per time and component, so seven steps are enough for the system of 32 unknowns; and
there is a PETSc as described that uses just seven. -/
example (b : Vec) : ∃ op pre P, ExactGmres P op pre 32 b ∧
    (∃ ops : List (Op V3), Computed (cfgSin discSin) (runOps (cfgSin discSin) (.setupFE :: .prepare :: ops)
      (freshWorld fun _ => 0)).obj .apply op ∧ Computed (cfgSin discSin) (runOps (cfgSin discSin) (.setupFE :: .prepare :: ops)
      (freshWorld fun _ => 0)).obj .preImproved pre) ∧
    ∃ x r s', getGmresSolution P op 32 b pre 7 none none true none Gmres.Example.s0 = (.ok (x, r), s') := by
  obtain ⟨A₁, A₂, w₁, w₂, P, v₁, fF, fS, h1, h2, hP, hF, hS⟩ := cfgSin_solvers fun _ => 0
  obtain ⟨u1, u2⟩ := C78_solvers_exist cfgSin_ok modeSpace_psd modeSpace_definite discSin_positive rfl feSin_indep rfl
    cfgSin_first_observable (by norm_num [cfgSin, discSin]) (freshWorld_fresh _) (freshWorld_fresh _) _ _ h1 h2
  obtain ⟨op, pre, hop, hpre⟩ := C79_maps_exist cfgSin_ok rfl rfl (freshWorld_fresh fun _ => 0) (freshWorld_noFail _) _
    (sinSolvers_set fF fS) (fun b => ⟨_, rfl⟩) (fun b => ⟨_, rfl⟩)
  have ho := determined_observes cfgSin_ok modeSpace_psd modeSpace_definite discSin_positive (by norm_num)
    cfgSin_determined (by norm_num [cfgSin, discSin])
  have hK : 1e-4 * (((cfgSin discSin).D.q + 1 : ℝ) ^ 2 / (cfgSin discSin).D.dt)
      * ((1e-20 * ((cfgSin discSin).D.N : ℝ)) ^ 2 * ((cfgSin discSin).D.qstar + 1) ^ 2)
      < (cfgSin discSin).D.gDual * (cfgSin discSin).D.dt := by norm_num [cfgSin, discSin]
  have hNN : 1 ≤ (cfgSin discSin).D.N := by norm_num [cfgSin, discSin]
  obtain ⟨a, ha⟩ := C84_finite_termination cfgSin_ok modeSpace_psd modeSpace_definite discSin_positive feSin_indep hNN
    rfl rfl ho hK (freshWorld_fresh _) (freshWorld_noFail _) (freshWorld_fresh _) (freshWorld_fresh _) _ _ _ h1 h2 u1 u2
    (sinSolvers_set fF fS) hF hS hop hpre b
  have hz : vnorm 32 (pre fun i => b i - op (fun e => ∑ i ∈ range 7, a i * kry op pre b i e) i) = 0 := by
    obtain ⟨-, hpr⟩ := documented_ready rfl (freshWorld_fresh _) (freshWorld_noFail _) (sinSolvers_set fF fS)
    have e1 := getSlabMatrixFirst_eq (freshWorld_fresh _) _ h1
    have e2 := getSlabMatrix_eq (freshWorld_fresh _) _ h2
    rw [e1] at hF u1
    rw [e2] at hS u2
    have := pAll_kernel cfgSin_ok hNN rfl u1.kernel u2.kernel fun d hd =>
      (computed_pre cfgSin_ok hNN rfl hpr hF hS hpre (fun i => b i - op (fun e => ∑ i ∈ range 7, a i * kry op pre b i e) i)
        hd).symm.trans (sub_eq_zero.2 (ha d hd).symm)
    rw [vnorm, sum_eq_zero fun d hd => by rw [this d (mem_range.1 hd)]; ring, Real.sqrt_zero]
  have hE : ExactGmres (petscX 7 fun e => ∑ i ∈ range 7, a i * kry op pre b i e) op pre 32 b := by
    refine ⟨fun k db _ _ _ => ?_, fun k db out _ _ _ h hr => ?_, fun k db out _ _ _ h _ a' => ?_⟩
    · simp only [petscX]; split
      · exact ⟨_, rfl⟩
      · exact ⟨_, rfl⟩
    · simp only [petscX] at h
      split at h <;> (cases h; norm_num at hr)
    · simp only [petscX] at h
      split at h
      · cases h
        rw [hz]
        exact Real.sqrt_nonneg _
      · cases h
        simp
  refine ⟨op, pre, _, hE, ⟨_, hop, hpre⟩, ?_⟩
  exact C84_gmres_returns cfgSin_ok modeSpace_psd modeSpace_definite discSin_positive feSin_indep hNN rfl rfl ho hK
    (freshWorld_fresh _) (freshWorld_noFail _) (freshWorld_fresh _) (freshWorld_fresh _) _ _ _ h1 h2 u1 u2
    (sinSolvers_set fF fS) hF hS hop hpre b hE (by simp [petscX]) 7 none none true none
    ⟨by norm_num [orDefault], by norm_num [orDefault], by norm_num [orDefault], by norm_num⟩ (fun _ _ => rfl)
    (by norm_num [cfgSin, discSin, feSin, FE.m]) (by norm_num [orDefault])

end Example

end Dxss
