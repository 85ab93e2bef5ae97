import Verif.Props.Fit

/-!
# Property C116: solve_1d.py fits its data

The script marks its data domain as fitted, so the indicator is lost (C35); what C114 states for a domain which is not marked as fitted is
false for the script as it is.
-/

namespace Dxss
open Finset

section
variable {V : Type} [AddCommGroup V] [Module ℝ V]

/-- A small function has almost the misfit of the zero function. -/
theorem misfit_ge {S : Space V} {D : Disc V} {ind : V} (hD : D.Ok) (hdt : 0 < D.dt) (hS : S.Psd ind) (he : ∀ v, S.omega ind v v ≤ S.mass v v)
    {u : ℝ → V} (hu : ∀ I, CombOn I u) (X : Field V) :
    Spec.misfit S D ind u 0 ≤ 1.1 * Spec.misfit S D ind u X + 11 * ∑ k ∈ range D.N, slabSq S.mass D.q D.dt k (X 0) := by
  have hq := hD.hq
  have len : ∀ k : ℕ, ((k + 1 : ℕ) : ℝ) * D.dt - k * D.dt = D.dt := fun k => by push_cast; ring
  have hle : ∀ k : ℕ, (k : ℝ) * D.dt ≤ ((k + 1 : ℕ) : ℝ) * D.dt := fun k => by linarith [len k]
  unfold Spec.misfit
  rw [mul_sum, mul_sum, ← sum_add_distrib]
  refine sum_le_sum fun k _ => ?_
  set I := Set.uIcc ((k : ℝ) * D.dt) (((k + 1 : ℕ) : ℝ) * D.dt)
  have c0 := (combOn_val hq D.dt k I (X 0)).1
  have cz := (combOn_val hq D.dt k I ((0 : Field V) 0)).1
  unfold Spec.slabInt slabSq
  rw [← intervalIntegral.integral_const_mul, ← intervalIntegral.integral_const_mul, ← intervalIntegral.integral_add
    ((((hu I).sub c0).bilin _ ((hu I).sub c0)).intervalIntegrable.const_mul _) ((c0.bilin _ c0).intervalIntegrable.const_mul _)]
  refine intervalIntegral.integral_mono_on (hle k) (((hu I).sub cz).bilin _ ((hu I).sub cz)).intervalIntegrable
    (((((hu I).sub c0).bilin _ ((hu I).sub c0)).intervalIntegrable.const_mul _).add ((c0.bilin _ c0).intervalIntegrable.const_mul _)) fun t _ => ?_
  have hv : Spec.val D.q D.dt k ((0 : Field V) 0) t = 0 := by simp [Spec.val]
  have e : u t - Spec.val D.q D.dt k ((0 : Field V) 0) t
      = Spec.val D.q D.dt k (X 0) t - (Spec.val D.q D.dt k (X 0) t - u t) := by rw [hv]; abel
  rw [e]
  have e2 : S.omega ind (Spec.val D.q D.dt k (X 0) t - u t) (Spec.val D.q D.dt k (X 0) t - u t)
      = S.omega ind (u t - Spec.val D.q D.dt k (X 0) t) (u t - Spec.val D.q D.dt k (X 0) t) := by
    simp only [map_sub, LinearMap.sub_apply]; ring
  have h := bilin_sub_weighted _ hS.omega (Spec.val D.q D.dt k (X 0) t) (Spec.val D.q D.dt k (X 0) t - u t)
  rw [e2] at h
  have h2 := he (Spec.val D.q D.dt k (X 0) t)
  change _ ≤ 1.1 * _ + 11 * _
  linarith

theorem misfit_nonneg {S : Space V} {D : Disc V} {ind : V} (hdt : 0 < D.dt) (hS : S.Psd ind) (u : ℝ → V) (X : Field V) :
    0 ≤ Spec.misfit S D ind u X :=
  sum_nonneg fun k _ => intervalIntegral.integral_nonneg (mul_le_mul_of_nonneg_right (by push_cast; linarith) hdt.le) fun _ _ => hS.omega _

end

section
variable {n : ℕ} {hn : 0 < n} {interp : (Mesh1.unit n hn).Broken →ₗ[ℝ] (Mesh1.unit n hn).Broken}
  {ind f : (Mesh1.unit n hn).Broken} {om' : DataDomain (Mesh1.unit n hn).Broken} {B : Built (Mesh1.unit n hn).Broken}
  {C : Cfg (Mesh1.unit n hn).Broken} {k : ℕ}

/-- C116, full statement: the solution of the linear system solve_1d.py sets up fits the data it is given on `x ≤ 0.2`, with a squared misfit of
at most half of the squared norm of the data.  False: `Example.C116_violated`, for each of the three orders. -/
def C116_statement (k : ℕ) : Prop := ∀ (interp : Example.msh.Broken →ₗ[ℝ] Example.msh.Broken)
    (B : Built Example.msh.Broken) (om' : DataDomain Example.msh.Broken) (C : Cfg Example.msh.Broken),
    construct interp (orderArgs k 32 Example.msh.sol1 Example.msh.dsol1) (Script.d1.dataDomain Example.nogcc) = (.ok B, om') →
    C.Ok → C.OfBuilt B → C.S = Example.msh.space → C.fe = Example.msh.pk k →
    ∀ (w₀ w₁ : World Example.msh.Broken) (r : Ref) (A : Mat) (x : Vec), w₀.Fresh → scriptSetup C w₀ = (.ok r, w₁) → C.Returns false A →
    (∀ d < A.size, A.mult x d = w₁.heap r d) →
    Spec.misfit Example.msh.space C.D Example.nogcc Example.msh.sol1 (C.full.field C.fe x)
      ≤ 1 / 2 * Spec.misfit Example.msh.space C.D Example.nogcc Example.msh.sol1 0

/-- C116, what holds: on any part of the interval (`f` is its indicator) the squared misfit of the solution of the linear system solve_1d.py
sets up is at least 90 per cent of the squared norm of the wave there, up to `1e-12`; whatever data domain it is given and with each order. -/
theorem C116_solution_partial (hb : construct interp (orderArgs k 32 (Mesh1.unit n hn).sol1 (Mesh1.unit n hn).dsol1)
      (Script.d1.dataDomain ind) = (.ok B, om')) (hf : (Mesh1.unit n hn).Fraction f) (hk : 1 ≤ k) (hlow : 32 ≤ n) (hsize : n ≤ 1000)
    (hC : C.Ok) (hB : C.OfBuilt B)
    (hS : C.S = (Mesh1.unit n hn).space) (hfe : C.fe.primal ≤ (Mesh1.unit n hn).lagrange k)
    {w₀ : World (Mesh1.unit n hn).Broken} (h₀ : w₀.Fresh) {r : Ref} {w₁ : World (Mesh1.unit n hn).Broken}
    (h : scriptSetup C w₀ = (.ok r, w₁)) {A : Mat} (hA : C.Returns false A) (x : Vec) (hx : ∀ d < A.size, A.mult x d = w₁.heap r d) :
    0.9 * Spec.misfit (Mesh1.unit n hn).space C.D f (Mesh1.unit n hn).sol1 0 - 1e-12
      ≤ Spec.misfit (Mesh1.unit n hn).space C.D f (Mesh1.unit n hn).sol1 (C.full.field C.fe x) := by
  have hD : OrderData C k 32 := order_data hb (by norm_num) hk hB
  rw [hA.eq] at hx
  obtain ⟨cd, -, hcd1, -, hsum⟩ := small_of_solution hb hk hlow hsize hC hB hS hfe h₀ h hx
  rw [hS, field_zero, Pi.zero_apply, sub_zero] at hsum
  have key := misfit_ge hC.disc hD.pos.dt ((Mesh1.unit n hn).space_psd hf.nonneg) hf.le (u := (Mesh1.unit n hn).sol1) (fun I => by
    have : (Mesh1.unit n hn).sol1 = (standing tau (sin1 hn)).u1 := by
      funext t
      exact fn_sin hn (ca t)
    rw [this]; exact (standing_comb tau (sin1 hn) I).1) (C.full.field C.fe x)
  have h1 : cd * 2.56e-38 ≤ 2.8e24 * 2.56e-38 := mul_le_mul_of_nonneg_right hcd1 (by norm_num)
  have h2 := hsum.trans h1
  have h3 := misfit_nonneg (D := C.D) hD.pos.dt ((Mesh1.unit n hn).space_psd hf.nonneg) (Mesh1.unit n hn).sol1 0
  generalize Spec.misfit (Mesh1.unit n hn).space C.D f (Mesh1.unit n hn).sol1 0 = a at *
  generalize Spec.misfit (Mesh1.unit n hn).space C.D f (Mesh1.unit n hn).sol1 (C.full.field C.fe x) = b at *
  generalize ∑ j ∈ range C.D.N, slabSq (Mesh1.unit n hn).space.mass C.D.q C.D.dt j (C.full.field C.fe x 0) = s at *
  norm_num at *
  linarith

end

namespace Example
open Mesh1

/-- C116 is false for each order. -/
theorem C116_violated {k : ℕ} (h1 : 1 ≤ k) (h3 : k ≤ 3) : ¬ C116_statement k := by
  intro hst
  obtain ⟨B, om', hb, hC, hB, h⟩ := solveK h1 h3 nogcc
  obtain ⟨w₁, A, x, ops, g1, g2, g3, -⟩ := h fun _ => 0
  have hle := hst LinearMap.id B om' (cfgK k B) hb hC hB rfl rfl _ _ _ _ x (freshWorld_fresh _) g1 g2 g3
  have hge := C116_solution_partial (C := cfgK k B) hb nogcc_fraction h1 (by norm_num) (by norm_num) hC hB rfl (msh.pk_primal k).le
    (freshWorld_fresh _) g1 g2 x g3
  have hD : OrderData (cfgK k B) k 32 := order_data hb (by norm_num) h1 hB
  have hd := nogcc_data (D := (cfgK k B).D) (by rw [hD.N]; rfl) (by rw [hD.dt]; norm_num)
  change 0.9 * Spec.misfit msh.space _ nogcc msh.sol1 0 - 1e-12 ≤ Spec.misfit msh.space _ nogcc msh.sol1 _ at hge
  generalize Spec.misfit msh.space (cfgK k B).D nogcc msh.sol1 0 = a at *
  generalize Spec.misfit msh.space (cfgK k B).D nogcc msh.sol1 ((cfgK k B).full.field (cfgK k B).fe x) = b at *
  norm_num at *
  linarith

/-- `C116_solution_partial` has instances: the solution exists for each order. -/
example {k : ℕ} (h1 : 1 ≤ k) (h3 : k ≤ 3) : ∃ B om', construct LinearMap.id (orderArgs k 32 msh.sol1 msh.dsol1)
      (Script.d1.dataDomain nogcc) = (.ok B, om') ∧ ∃ w₁ A x, scriptSetup (cfgK k B) (freshWorld fun _ => 0) = (.ok .rhs, w₁) ∧
    (cfgK k B).Returns false A ∧ (∀ d < A.size, A.mult x d = w₁.heap .rhs d) ∧
    0.9 * Spec.misfit msh.space (cfgK k B).D nogcc msh.sol1 0 - 1e-12
      ≤ Spec.misfit msh.space (cfgK k B).D nogcc msh.sol1 ((cfgK k B).full.field (cfgK k B).fe x) := by
  obtain ⟨B, om', hb, hC, hB, h⟩ := solveK h1 h3 nogcc
  obtain ⟨w₁, A, x, ops, g1, g2, g3, -⟩ := h fun _ => 0
  exact ⟨B, om', hb, w₁, A, x, g1, g2, g3, C116_solution_partial (C := cfgK k B) hb nogcc_fraction h1 (by norm_num) (by norm_num) hC hB rfl
    (msh.pk_primal k).le (freshWorld_fresh _) g1 g2 x g3⟩

end Example
end Dxss
