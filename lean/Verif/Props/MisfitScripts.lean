import Verif.Props.Misfit
import Verif.Props.Fit2
import Verif.Props.Fit3

/-!
# Property C120: solve_2d.py and solve_3d.py fit their data

As in one dimension (C116) the data domains are marked as fitted and the indicator is lost (C35).
-/

namespace Dxss
open Finset Real MeasureTheory

section
variable {V : Type} [AddCommGroup V] [Module ℝ V]

theorem cos_sq_deriv {ω : ℝ} (h0 : 0 < ω) (y : ℝ) :
    HasDerivAt (fun y => y / 2 + sin (2 * ω * y) / (4 * ω)) (cos (ω * y) * cos (ω * y)) y := by
  have h1 : HasDerivAt (fun y : ℝ => 2 * ω * y) (2 * ω) y := by simpa using (hasDerivAt_id y).const_mul (2 * ω)
  have h2 := ((Real.hasDerivAt_sin _).comp y h1).div_const (4 * ω)
  have h3 : HasDerivAt (fun y : ℝ => y / 2) (1 / 2) y := by simpa using (hasDerivAt_id y).div_const 2
  have e : cos (2 * ω * y) = 2 * cos (ω * y) ^ 2 - 1 := by rw [← Real.cos_two_mul]; ring_nf
  refine (h3.add h2).congr_deriv ?_
  rw [e]
  field_simp
  ring

/-- The squared norm of a standing wave: the misfit of the zero function. -/
theorem misfit_zero_ge {S : Space V} {D : Disc V} {ind s : V} {ω : ℝ} (h0 : 0 < ω) (hs : 0 ≤ S.omega ind s s) :
    S.omega ind s s * (D.N * D.dt / 2 - 1 / (4 * ω)) ≤ Spec.misfit S D ind (standing ω s).u1 0 := by
  have hv : ∀ k t, Spec.val D.q D.dt k ((0 : Field V) 0) t = 0 := fun k t => by simp [Spec.val]
  have e : ∀ k ∈ range D.N, Spec.slabInt D.dt k (fun t => S.omega ind ((standing ω s).u1 t - Spec.val D.q D.dt k ((0 : Field V) 0) t)
      ((standing ω s).u1 t - Spec.val D.q D.dt k ((0 : Field V) 0) t))
      = S.omega ind s s * ∫ t in (k * D.dt)..((k + 1 : ℕ) * D.dt), cos (ω * t) * cos (ω * t) := by
    intro k _
    rw [← intervalIntegral.integral_const_mul, Spec.slabInt]
    refine intervalIntegral.integral_congr fun t _ => ?_
    have h1 : (standing ω s).u1 t = cos (ω * t) • s := rfl
    simp only [hv, sub_zero]
    rw [h1, map_smul, map_smul, LinearMap.smul_apply, smul_eq_mul, smul_eq_mul]
    ring
  have c : Continuous fun y : ℝ => cos (ω * y) * cos (ω * y) := by fun_prop
  have hint := intervalIntegral.sum_integral_adjacent_intervals (a := fun k : ℕ => (k:ℝ) * D.dt) (n := D.N) (μ := MeasureTheory.volume)
    (f := fun y : ℝ => cos (ω * y) * cos (ω * y)) fun _ _ => c.intervalIntegrable _ _
  rw [Spec.misfit, sum_congr rfl e, ← mul_sum, hint,
    intervalIntegral.integral_eq_sub_of_hasDerivAt (fun y _ => cos_sq_deriv h0 y) (c.intervalIntegrable _ _)]
  refine mul_le_mul_of_nonneg_left ?_ hs
  have h1 := neg_one_le_sin (2 * ω * (D.N * D.dt))
  have h2 : -1 / (4 * ω) ≤ sin (2 * ω * (D.N * D.dt)) / (4 * ω) := by gcongr
  simp only [Nat.cast_zero, zero_mul, mul_zero, Real.sin_zero, zero_div, add_zero, sub_zero]
  rw [neg_div] at h2
  linarith

end

section
variable {m : Tri} {interp : m.Broken →ₗ[ℝ] m.Broken} {ind f : m.Broken} {om' : DataDomain m.Broken}
  {B : Built m.Broken} {C : Cfg m.Broken} {hm hM δ R : ℝ}

/-- The data domain of solve_2d.py (lines 85-97) on a triangulation: the triangles whose midpoints are at most 0.2 from the boundary. -/
noncomputable def Tri.data2 (m : Tri) : m.Broken := fun K =>
  if (m.v K 0 0 + m.v K 1 0 + m.v K 2 0) / 3 ≤ 0.2 ∨ 0.8 ≤ (m.v K 0 0 + m.v K 1 0 + m.v K 2 0) / 3 ∨
    0.8 ≤ (m.v K 0 1 + m.v K 1 1 + m.v K 2 1) / 3 ∨ (m.v K 0 1 + m.v K 1 1 + m.v K 2 1) / 3 ≤ 0.2 then m.space.one K else 0

/-- C120, full statement in two dimensions: on every triangulation of the unit square, the solution of the linear system solve_2d.py sets up
fits the data it is given near the boundary, with a squared misfit of at most half of the squared norm of the data.  False:
`Example.C120_violated_2d`. -/
def C120_statement_2d : Prop := ∀ (m : Tri), m.Tiles → m.BdSquare → ∀ (interp : m.Broken →ₗ[ℝ] m.Broken)
    (B : Built m.Broken) (om' : DataDomain m.Broken) (C : Cfg m.Broken),
    construct interp (Script.d2.args m.sol2 m.dsol2) (Script.d2.dataDomain m.data2) = (.ok B, om') →
    C.Ok → C.OfBuilt B → C.S = m.space → C.fe = m.cg 3 3 →
    ∀ (w₀ w₁ : World m.Broken) (r : Ref) (A : Mat) (x : Vec), w₀.Fresh → scriptSetup C w₀ = (.ok r, w₁) → C.Returns false A →
    (∀ d < A.size, A.mult x d = w₁.heap r d) →
    Spec.misfit m.space C.D m.data2 m.sol2 (C.full.field C.fe x) ≤ 1 / 2 * Spec.misfit m.space C.D m.data2 m.sol2 0

/-- C120, what holds in two dimensions: on any part of the square (`f` is its indicator) the squared misfit of the solution of the linear
system solve_2d.py sets up is at least 90 per cent of the squared norm of the wave there, up to `1e-10`; whatever data domain it is given,
unless the mesh is extremely fine or degenerate. -/
theorem C120_solve_2d_partial (hb : construct interp (Script.d2.args m.sol2 m.dsol2) (Script.d2.dataDomain ind) = (.ok B, om'))
    (hf : m.Fraction f) (ht : m.Tiles) (hbd : m.Bounds hm hM δ R)
    (hsize : orderConst (triConst hm hM δ R 45) (hM ^ 2) (1 / (8:ℤ)) 1e-3 ≤ 2.1e26)
    (hC : C.Ok) (hB : C.OfBuilt B) (hS : C.S = m.space) (hfe : C.fe.primal ≤ m.lagrange 3)
    {w₀ : World m.Broken} (h₀ : w₀.Fresh) {r : Ref} {w₁ : World m.Broken}
    (h : scriptSetup C w₀ = (.ok r, w₁)) {A : Mat} (hA : C.Returns false A) (x : Vec) (hx : ∀ d < A.size, A.mult x d = w₁.heap r d) :
    0.9 * Spec.misfit m.space C.D f m.sol2 0 - 1e-10 ≤ Spec.misfit m.space C.D f m.sol2 (C.full.field C.fe x) := by
  have hD : TwoDData C 8 := twoD_data (N := 8) hb (by norm_num) hB
  rw [hA.eq] at hx
  obtain ⟨cd, -, hcd1, -, hsum⟩ := small2_of_solution hb ht hbd hsize hC hB hS hfe h₀ h hx
  rw [hS, field_zero, Pi.zero_apply, sub_zero] at hsum
  have key := misfit_ge hC.disc hD.pos.dt (m.space_psd hf.nonneg) hf.le (u := m.sol2) (fun I => by
    have : m.sol2 = (standing (√2 * π) (m.fn (AnaD.sines 1))).u1 := by rw [← Tri.path2_eq]; rfl
    rw [this]; exact (standing_comb _ _ I).1) (C.full.field C.fe x)
  have h1 : cd * 2.56e-38 ≤ 2.1e26 * 2.56e-38 := mul_le_mul_of_nonneg_right hcd1 (by norm_num)
  have h2 := hsum.trans h1
  have h3 := misfit_nonneg (D := C.D) hD.pos.dt (m.space_psd hf.nonneg) m.sol2 0
  generalize Spec.misfit m.space C.D f m.sol2 0 = a at *
  generalize Spec.misfit m.space C.D f m.sol2 (C.full.field C.fe x) = b at *
  generalize ∑ j ∈ range C.D.N, slabSq m.space.mass C.D.q C.D.dt j (C.full.field C.fe x 0) = s at *
  norm_num at *
  linarith

end

section
variable {k : ℕ} {hk : 0 < k} {interp : (Grid.unit 2 k hk).Broken →ₗ[ℝ] (Grid.unit 2 k hk).Broken} {ind f : (Grid.unit 2 k hk).Broken}
  {om' : DataDomain (Grid.unit 2 k hk).Broken} {B : Built (Grid.unit 2 k hk).Broken} {C : Cfg (Grid.unit 2 k hk).Broken}

/-- The data domain of solve_3d.py (lines 67, 140-148, with `GCC` false): the cells where `x[0] ≤ 0.25`, on the mesh with 16 cells in each
direction. -/
noncomputable def Example.data3 : Example.box.Broken := fun I => if (I 0).1 < 4 then Example.box.space.one I else 0

/-- C120, full statement in three dimensions: the solution of the linear system solve_3d.py sets up fits the data it is given on
`x[0] ≤ 0.25`, with a squared misfit of at most half of the squared norm of the data.  False: `Example.C120_violated_3d`. -/
def C120_statement_3d : Prop := ∀ (interp : Example.box.Broken →ₗ[ℝ] Example.box.Broken)
    (B : Built Example.box.Broken) (om' : DataDomain Example.box.Broken) (C : Cfg Example.box.Broken),
    construct interp (Script.d3.args Example.box.sol3 Example.box.dsol3) (Script.d3.dataDomain Example.data3) = (.ok B, om') →
    C.Ok → C.OfBuilt B → C.S = Example.box.space → C.fe = Example.box.q1 →
    ∀ (w₀ w₁ : World Example.box.Broken) (r : Ref) (A : Mat) (x : Vec), w₀.Fresh → scriptSetup C w₀ = (.ok r, w₁) → C.Returns false A →
    (∀ d < A.size, A.mult x d = w₁.heap r d) →
    Spec.misfit Example.box.space C.D Example.data3 Example.box.sol3 (C.full.field C.fe x)
      ≤ 1 / 2 * Spec.misfit Example.box.space C.D Example.data3 Example.box.sol3 0

/-- C120, what holds in three dimensions: on any part of the cube (`f` is its indicator) the squared misfit of the solution of the linear
system solve_3d.py sets up is at least 90 per cent of the squared norm of the wave there, up to `1e-20`; whatever data domain it is given,
with up to 1000 cells in each direction. -/
theorem C120_solve_3d_partial (hb : construct interp (Script.d3.args (Grid.unit 2 k hk).sol3 (Grid.unit 2 k hk).dsol3)
      (Script.d3.dataDomain ind) = (.ok B, om')) (hf : (Grid.unit 2 k hk).Fraction f) (hsize : k ≤ 1000) (hC : C.Ok) (hB : C.OfBuilt B)
    (hS : C.S = (Grid.unit 2 k hk).space) (hfe : C.fe.primal ≤ (Grid.unit 2 k hk).lagrange 1)
    {w₀ : World (Grid.unit 2 k hk).Broken} (h₀ : w₀.Fresh) {r : Ref} {w₁ : World (Grid.unit 2 k hk).Broken}
    (h : scriptSetup C w₀ = (.ok r, w₁)) {A : Mat} (hA : C.Returns false A) (x : Vec) (hx : ∀ d < A.size, A.mult x d = w₁.heap r d) :
    0.9 * Spec.misfit (Grid.unit 2 k hk).space C.D f (Grid.unit 2 k hk).sol3 0 - 1e-20
      ≤ Spec.misfit (Grid.unit 2 k hk).space C.D f (Grid.unit 2 k hk).sol3 (C.full.field C.fe x) := by
  have hD : ThreeDData C 8 := threeD_data (N := 8) hb (by norm_num) hB
  rw [hA.eq] at hx
  obtain ⟨hPsd, hdet, hE⟩ := small3_of_solution hb hsize hC hB hS hfe h₀ h hx
  have hsum := (slabSq_energy hC hPsd hD.pos (by positivity) hdet x 0).trans (mul_le_mul_of_nonneg_left hE (by positivity))
  rw [hS, field_zero, Pi.zero_apply, sub_zero] at hsum
  have key := misfit_ge hC.disc hD.pos.dt ((Grid.unit 2 k hk).space_psd hf.nonneg) hf.le (u := (Grid.unit 2 k hk).sol3) (fun I => by
    have : (Grid.unit 2 k hk).sol3 = (standing (√3 * π) (Grid.boxS hk : (Grid.unit 2 k hk).Broken)).u1 := rfl
    rw [this]; exact (standing_comb _ _ I).1) (C.full.field C.fe x)
  have hk2 : (k:ℝ) ^ 2 ≤ 1e6 := by
    have : (k:ℝ) ≤ 1000 := by exact_mod_cast hsize
    have : (0:ℝ) ≤ k := Nat.cast_nonneg k
    nlinarith
  have h2 : ∑ j ∈ range C.D.N, slabSq (Grid.unit 2 k hk).space.mass C.D.q C.D.dt j (C.full.field C.fe x 0) ≤ 1.28e-28 := by
    refine hsum.trans ?_
    norm_num at hk2 ⊢
    linarith
  have h3 := misfit_nonneg (D := C.D) hD.pos.dt ((Grid.unit 2 k hk).space_psd hf.nonneg) (Grid.unit 2 k hk).sol3 0
  generalize Spec.misfit (Grid.unit 2 k hk).space C.D f (Grid.unit 2 k hk).sol3 0 = a at *
  generalize Spec.misfit (Grid.unit 2 k hk).space C.D f (Grid.unit 2 k hk).sol3 (C.full.field C.fe x) = b at *
  generalize ∑ j ∈ range C.D.N, slabSq (Grid.unit 2 k hk).space.mass C.D.q C.D.dt j (C.full.field C.fe x 0) = s at *
  clear hsum
  norm_num at *
  linarith

end

namespace Example
open Tri Grid

theorem data2_fraction (m : Tri) : m.Fraction m.data2 := by
  classical
  exact m.fraction_union fun K => (m.v K 0 0 + m.v K 1 0 + m.v K 2 0) / 3 ≤ 0.2 ∨ 0.8 ≤ (m.v K 0 0 + m.v K 1 0 + m.v K 2 0) / 3 ∨
    0.8 ≤ (m.v K 0 1 + m.v K 1 1 + m.v K 2 1) / 3 ∨ (m.v K 0 1 + m.v K 1 1 + m.v K 2 1) / 3 ≤ 0.2

/-- The unit square divided into 200 triangles. -/
noncomputable abbrev tiles : Tri := squares 10 (by norm_num)

theorem tiles_size : orderConst (triConst (1 / (10:ℕ)) (√2 * (1 / (10:ℕ))) (1 / ((10:ℕ):ℝ) ^ 2) (√2) 45) ((√2 * (1 / (10:ℕ))) ^ 2) (1 / (8:ℤ)) 1e-3
    ≤ 2.1e26 := by
  have s1 : √2 ≤ (1.5:ℝ) := by rw [sqrt_le_left (by norm_num)]; norm_num
  have s0 := sqrt_nonneg (2:ℝ)
  have hc0 : 0 ≤ triConst (1 / (10:ℕ)) (√2 * (1 / (10:ℕ))) (1 / ((10:ℕ):ℝ) ^ 2) (√2) 45 :=
    triConst_nonneg (squares_bounds (k := 10) (hk := by norm_num)) (by norm_num)
  have hc : triConst (1 / (10:ℕ)) (√2 * (1 / (10:ℕ))) (1 / ((10:ℕ):ℝ) ^ 2) (√2) 45 ≤ 1e6 := by
    unfold triConst
    calc _ ≤ (2 * 1.5 * (1.5 * (1 / (10:ℕ))) + 120 * 1.5 ^ 2 * (1.5 * (1 / (10:ℕ))) ^ 2 / (1 / ((10:ℕ):ℝ) ^ 2)) / 45
          + 4 * 1.5 ^ 4 / (1 / ((10:ℕ):ℝ)) ^ 2
          + 120 * (1.5 * (1 / (10:ℕ))) * 1.5 ^ 4 / (1 / ((10:ℕ):ℝ) ^ 2 * (1 / (10:ℕ))) := by gcongr
      _ ≤ (1e6:ℝ) := by norm_num
  generalize triConst (1 / (10:ℕ)) (√2 * (1 / (10:ℕ))) (1 / ((10:ℕ):ℝ) ^ 2) (√2) 45 = c at *
  unfold orderConst
  calc _ ≤ 7 * 1e6 / 1e-3 * (13 + 340 * ((1.5 * (1 / ((10:ℕ):ℝ))) ^ 2 / (1 / ((8:ℤ):ℝ)) ^ 2)
        + 1e6 * ((1.5 * (1 / ((10:ℕ):ℝ))) ^ 2 / (1 / ((8:ℤ):ℝ)) ^ 4) * (12528 + 115200 * ((1.5 * (1 / ((10:ℕ):ℝ))) ^ 2 / (1 / ((8:ℤ):ℝ)) ^ 2))) := by gcongr
    _ ≤ _ := by norm_num

/-- The squared norm of the sine on the data domain, bounded below by one of the triangles. -/
theorem data2_sine : 1e-4 ≤ tiles.space.omega tiles.data2 (tiles.fn (AnaD.sines 1)) (tiles.fn (AnaD.sines 1)) := by
  let K₀ : GIdx 10 := (⟨1, by norm_num⟩, ⟨4, by norm_num⟩, false)
  let K : Fin tiles.n := Fintype.equivFin (GIdx 10) K₀
  have hv : tiles.v K = gv K₀ := squares_v K₀
  have v0 : tiles.v K 0 = ![1 / 10, 4 / 10] := by rw [hv]; change gpt 10 1 4 = _; simp [gpt]
  have v1 : tiles.v K 1 = ![2 / 10, 4 / 10] := by rw [hv]; change gpt 10 (1 + 1) 4 = _; norm_num [gpt]
  have v2 : tiles.v K 2 = ![2 / 10, 5 / 10] := by rw [hv]; change gpt 10 (1 + 1) (4 + 1) = _; norm_num [gpt]
  have hK : tiles.data2 K = tiles.space.one K := if_pos (by left; rw [v0, v1, v2]; norm_num)
  rw [Tri.space_omega]
  have hnn : ∀ J ∈ (univ : Finset (Fin tiles.n)), 0 ≤ tiles.cellL2 J (AnaD.mul (tiles.data2 J) (tiles.fn (AnaD.sines 1) J)) (tiles.fn (AnaD.sines 1) J) :=
    fun J _ => AnaD.triInt_nonneg (tiles.pos J) fun s t a b c => by
      change 0 ≤ (tiles.data2 J).1 _ * (AnaD.sines 1 : AnaD 2).1 _ * (AnaD.sines 1 : AnaD 2).1 _
      rw [mul_assoc]
      exact mul_nonneg (data2_fraction tiles J s t a b c).1 (mul_self_nonneg _)
  refine le_trans ?_ (single_le_sum hnn (mem_univ K))
  have hmono := AnaD.triInt_mono (tiles.pos K) (f := (0.025:ℝ) • tiles.space.one K)
    (g := AnaD.mul (AnaD.mul (tiles.data2 K) (AnaD.sines 1)) (AnaD.sines 1)) fun s t a b c => by
      have e : (AnaD.sines 1 : AnaD 2).1 (refPt (tiles.v K 0) (tiles.v K 1) (tiles.v K 2) s t)
          = sin (π * (1 / 10 + (s + t) / 10)) * sin (π * (4 / 10 + t / 10)) := by
        rw [v0, v1, v2]
        change 1 * ∏ i, sin (π * _) = _
        rw [Fin.prod_univ_two, one_mul]
        congr 3 <;> simp [refPt] <;> ring
      rw [hK]
      change 0.025 * 1 ≤ 1 * (AnaD.sines 1 : AnaD 2).1 _ * (AnaD.sines 1 : AnaD 2).1 _
      rw [e, one_mul]
      have low : ∀ y : ℝ, 0 ≤ y → y ≤ 1 / 2 → 2 * y ≤ sin (π * y) := fun y h0 h1 => by
        have := Real.mul_le_sin (x := π * y) (by positivity) (by nlinarith [pi_pos])
        have e : 2 / π * (π * y) = 2 * y := by field_simp
        linarith
      have l0 := low (1 / 10 + (s + t) / 10) (by positivity) (by linarith)
      have l1 := low (4 / 10 + t / 10) (by positivity) (by linarith)
      have l0' : (1 / 5 : ℝ) ≤ sin (π * (1 / 10 + (s + t) / 10)) := by linarith
      have l1' : (4 / 5 : ℝ) ≤ sin (π * (4 / 10 + t / 10)) := by linarith
      have q : (1 / 5 * (4 / 5) : ℝ) ≤ sin (π * (1 / 10 + (s + t) / 10)) * sin (π * (4 / 10 + t / 10)) := by gcongr
      calc (0.025:ℝ) * 1 ≤ (1 / 5 * (4 / 5)) * (1 / 5 * (4 / 5)) := by norm_num
        _ ≤ _ := mul_self_le_mul_self (by norm_num) q
  refine le_trans ?_ hmono
  rw [map_smul, AnaD.triInt_eq]
  have hd : det2 (tiles.v K 0) (tiles.v K 1) (tiles.v K 2) = 1 / 100 := by
    rw [v0, v1, v2]; norm_num [det2]
  have hr : (refInt fun s t => (tiles.space.one K).1 (refPt (tiles.v K 0) (tiles.v K 1) (tiles.v K 2) s t)) = 1 / 2 := by
    change ∫ s in (0:ℝ)..1, ∫ t in (0:ℝ)..(1 - s), (1:ℝ) = _
    simp only [intervalIntegral.integral_const, smul_eq_mul, mul_one, sub_zero]
    rw [intervalIntegral.integral_sub (by simp) (by simp)]
    norm_num
  rw [hd, hr]
  norm_num

/-- The solution of the linear system of solve_2d.py on this triangulation exists. -/
theorem solveTiles (ind : tiles.Broken) : ∃ B om', construct LinearMap.id (Script.d2.args tiles.sol2 tiles.dsol2) (Script.d2.dataDomain ind)
      = (.ok B, om') ∧ (cfg2N 8 B).Ok ∧ (cfg2N 8 B).OfBuilt B ∧
    ∃ w₁ A x, scriptSetup (cfg2N 8 B) (freshWorld fun _ => 0) = (.ok .rhs, w₁) ∧ (cfg2N 8 B).Returns false A ∧ A.UniquelySolvable ∧
      ∀ d < A.size, A.mult x d = w₁.heap .rhs d := by
  obtain ⟨B, om', hb, hC, hB⟩ := built2N (m := tiles) (N := 8) (by norm_num) ind (Script.d2.dataDomain ind).fitted
  refine ⟨B, om', hb, hC, hB, ?_⟩
  obtain ⟨w₁, h, -⟩ := scriptSetup_run (C := cfg2N 8 B) (freshWorld_fresh fun _ => 0) (freshWorld_noFail _)
  obtain ⟨v₀, ops, v₁, g₀, hops, hA'⟩ := returns (cfg2N 8 B) false
  have hind : (cfg2N 8 B).D.ind = 0 := by
    obtain ⟨b, -, e⟩ := construct_facts hb
    rw [hB.D, e]
    simp [builtOf, Script.dataDomain, Script.fitted]
  have hU := (C110_solve_2d (C := cfg2N 8 B) (N := 8) hb (by norm_num) hC hB rfl (fun K s t _ _ _ => by rw [hind]; exact le_rfl)
    (tiles.cg_primal 3 3).le (tiles.cg_indep 3 3) (squares_bounds (k := 10) (hk := by norm_num))
    ((mul_le_mul_of_nonneg_right tiles_size (by positivity)).trans (by norm_num)) g₀ ops hops hA').2
  obtain ⟨x, hx, -⟩ := hU (w₁.heap .rhs)
  exact ⟨w₁, _, x, h, ⟨v₀, ops, v₁, g₀, hops, hA'⟩, hU, hx⟩

/-- C120 is false in two dimensions. -/
theorem C120_violated_2d : ¬ C120_statement_2d := by
  intro hst
  obtain ⟨B, om', hb, hC, hB, w₁, A, x, g1, g2, -, g3⟩ := solveTiles tiles.data2
  have hle := hst tiles squares_tiles squares_bd LinearMap.id B om' (cfg2N 8 B) hb hC hB rfl rfl _ _ _ _ x (freshWorld_fresh _) g1 g2 g3
  have hge := C120_solve_2d_partial (C := cfg2N 8 B) hb (data2_fraction tiles) squares_tiles (squares_bounds (k := 10) (hk := by norm_num))
    tiles_size hC hB rfl (tiles.cg_primal 3 3).le (freshWorld_fresh _) g1 g2 x g3
  have hD : TwoDData (cfg2N 8 B) 8 := twoD_data (N := 8) hb (by norm_num) hB
  have e : tiles.sol2 = (Dxss.standing (√2 * π) (tiles.fn (AnaD.sines 1))).u1 := by rw [← Tri.path2_eq]; rfl
  have s1 : (1:ℝ) ≤ √2 := Real.le_sqrt_of_sq_le (by norm_num)
  have hω : 3 ≤ √2 * π := by nlinarith [pi_gt_three]
  have hs := data2_sine
  have hd := misfit_zero_ge (S := tiles.space) (D := (cfg2N 8 B).D) (ind := tiles.data2) (s := tiles.fn (AnaD.sines 1)) (ω := √2 * π)
    (by linarith) (le_trans (by norm_num) hs)
  have hT : (((cfg2N 8 B).D.N : ℕ) : ℝ) * (cfg2N 8 B).D.dt = 1 := by rw [hD.N, hD.dt, show Int.toNat 8 = 8 from rfl]; norm_num
  have hi : 1 / (4 * (√2 * π)) ≤ 1 / 12 := one_div_le_one_div_of_le (by norm_num) (by linarith)
  rw [hT, ← e] at hd
  have h1 : (1e-4:ℝ) * (1 / 10) ≤ tiles.space.omega tiles.data2 (tiles.fn (AnaD.sines 1)) (tiles.fn (AnaD.sines 1)) * (1 / 2 - 1 / (4 * (√2 * π))) :=
    mul_le_mul hs (by linarith) (by norm_num) (le_trans (by norm_num) hs)
  have h2 := h1.trans hd
  clear hd h1 hs hT hi e
  generalize Spec.misfit tiles.space (cfg2N 8 B).D tiles.data2 tiles.sol2 0 = a at *
  generalize Spec.misfit tiles.space (cfg2N 8 B).D tiles.data2 tiles.sol2 ((cfg2N 8 B).full.field (cfg2N 8 B).fe x) = b at *
  norm_num at *
  linarith

/-- `C120_solve_2d_partial` has instances: the solution exists. -/
example : ∃ B om', construct LinearMap.id (Script.d2.args tiles.sol2 tiles.dsol2) (Script.d2.dataDomain tiles.data2) = (.ok B, om') ∧
    ∃ w₁ A x, scriptSetup (cfg2N 8 B) (freshWorld fun _ => 0) = (.ok .rhs, w₁) ∧ (cfg2N 8 B).Returns false A ∧
      (∀ d < A.size, A.mult x d = w₁.heap .rhs d) ∧
    0.9 * Spec.misfit tiles.space (cfg2N 8 B).D tiles.data2 tiles.sol2 0 - 1e-10
      ≤ Spec.misfit tiles.space (cfg2N 8 B).D tiles.data2 tiles.sol2 ((cfg2N 8 B).full.field (cfg2N 8 B).fe x) := by
  obtain ⟨B, om', hb, hC, hB, w₁, A, x, g1, g2, -, g3⟩ := solveTiles tiles.data2
  exact ⟨B, om', hb, w₁, A, x, g1, g2, g3, C120_solve_2d_partial (C := cfg2N 8 B) hb (data2_fraction tiles) squares_tiles
    (squares_bounds (k := 10) (hk := by norm_num)) tiles_size hC hB rfl (tiles.cg_primal 3 3).le (freshWorld_fresh _) g1 g2 x g3⟩

theorem data3_fraction : box.Fraction data3 := box.fraction_union fun I => (I 0).1 < 4

theorem axis_x (a : Fin 3) (i : ℕ) : (box.axis a).x i = i / 16 := by simp [box, Grid.unit, Mesh1.unit]

/-- The squared norm of the sine on the data domain, bounded below by one of the cells. -/
theorem data3_sine : 1e-5 ≤ box.space.omega data3 (boxS (by norm_num)) (boxS (by norm_num)) := by
  let I : box.Cell := fun a => if a = 0 then ⟨3, show 3 < 16 by norm_num⟩ else ⟨7, show 7 < 16 by norm_num⟩
  have t2 : (2 : Fin (2 + 1)) ≠ 0 := by decide
  rw [Grid.space_omega]
  have hnn : ∀ J ∈ (univ : Finset box.Cell), 0 ≤ ∫ y in Set.Icc (lo J) (hi J),
      (data3 J).1 y * ((boxS (by norm_num) : box.Broken) J).1 y * ((boxS (by norm_num) : box.Broken) J).1 y := fun J _ =>
    setIntegral_nonneg isCompact_Icc.isClosed.measurableSet fun y hy => by
      rw [mul_assoc]
      exact mul_nonneg (data3_fraction J y hy).1 (mul_self_nonneg _)
  refine le_trans ?_ (single_le_sum hnn (mem_univ I))
  have hlo : lo I = fun a => if a = 0 then 3 / 16 else 7 / 16 := by
    funext a; fin_cases a <;> simp [lo, I, axis_x]
  have hhi : hi I = fun a => if a = 0 then 4 / 16 else 8 / 16 := by
    funext a; fin_cases a <;> simp [hi, I, axis_x]
  have hvol : (volume (Set.Icc (lo I) (hi I))).toReal = 1 / 4096 := by
    rw [Real.volume_Icc_pi_toReal (by rw [hlo, hhi]; intro a; fin_cases a <;> norm_num), hlo, hhi, Fin.prod_univ_three]
    simp only [if_neg t2]
    norm_num
  have hpt : ∀ y ∈ Set.Icc (lo I) (hi I), (0.08:ℝ) ≤ (data3 I).1 y * ((boxS (by norm_num) : box.Broken) I).1 y * ((boxS (by norm_num) : box.Broken) I).1 y := by
    intro y hy
    have e1 : (data3 I).1 y = 1 := by
      have : data3 I = box.space.one I := if_pos (by decide)
      rw [this]; rfl
    have e2 : ((boxS (by norm_num) : box.Broken) I).1 y = sin (π * y 0) * sin (π * y 1) * sin (π * y 2) := by
      change ∏ a, sin (π * y a) = _
      rw [Fin.prod_univ_three]
    have low : ∀ a, lo I a ≤ y a ∧ y a ≤ 1 / 2 → 2 * lo I a ≤ sin (π * y a) := fun a h => by
      have h0 : 0 ≤ lo I a := by rw [hlo]; fin_cases a <;> norm_num
      have := Real.mul_le_sin (x := π * y a) (by have := h0.trans h.1; positivity) (by nlinarith [pi_pos])
      have e : 2 / π * (π * y a) = 2 * y a := by field_simp
      linarith [h.1]
    have b : ∀ a, hi I a ≤ 1 / 2 := fun a => by rw [hhi]; fin_cases a <;> norm_num
    have l := fun a => low a ⟨hy.1 a, (hy.2 a).trans (b a)⟩
    have l0 := l 0
    have l1 := l 1
    have l2 := l 2
    rw [hlo] at l0 l1 l2
    simp only [if_neg t2] at l2
    norm_num at l0 l1 l2
    rw [e1, e2, one_mul]
    have p : (3 / 8 * (7 / 8) * (7 / 8) : ℝ) ≤ sin (π * y 0) * sin (π * y 1) * sin (π * y 2) := by gcongr
    calc (0.08:ℝ) ≤ (3 / 8 * (7 / 8) * (7 / 8)) * (3 / 8 * (7 / 8) * (7 / 8)) := by norm_num
      _ ≤ _ := mul_self_le_mul_self (by norm_num) p
  have hc : ∫ _ in Set.Icc (lo I) (hi I), (0.08:ℝ) = 0.08 / 4096 := by
    rw [setIntegral_const, smul_eq_mul, Measure.real, hvol]; norm_num
  refine le_trans ?_ (setIntegral_mono_on (continuous_const.integrableOn_Icc)
    (AnaD.intOn (((AnaD.cont _).mul (AnaD.cont _)).mul (AnaD.cont _)) _ _) isCompact_Icc.isClosed.measurableSet hpt)
  rw [hc]; norm_num

/-- C120 is false in three dimensions. -/
theorem C120_violated_3d : ¬ C120_statement_3d := by
  intro hst
  obtain ⟨B, om', hb, hC, hB, h⟩ := solveBox data3
  obtain ⟨w₁, A, x, ops, g1, g2, g3, -⟩ := h fun _ => 0
  have hle := hst LinearMap.id B om' (cfgBox B) hb hC hB rfl rfl _ _ _ _ x (freshWorld_fresh _) g1 g2 g3
  have hge := C120_solve_3d_partial (C := cfgBox B) hb data3_fraction (by norm_num) hC hB rfl (q1_primal _) (freshWorld_fresh _) g1 g2 x g3
  have hD : ThreeDData (cfgBox B) 8 := threeD_data (N := 8) hb (by norm_num) hB
  have e : box.sol3 = (Dxss.standing (√3 * π) (boxS (by norm_num) : box.Broken)).u1 := rfl
  have s1 : (1.5:ℝ) ≤ √3 := Real.le_sqrt_of_sq_le (by norm_num)
  have hω : 4.5 ≤ √3 * π := by nlinarith [pi_gt_three]
  have hs := data3_sine
  have hd := misfit_zero_ge (S := box.space) (D := (cfgBox B).D) (ind := data3) (s := boxS (by norm_num)) (ω := √3 * π)
    (by linarith) (le_trans (by norm_num) hs)
  have hT : (((cfgBox B).D.N : ℕ) : ℝ) * (cfgBox B).D.dt = 1 / 2 := by rw [hD.N, hD.dt, show Int.toNat 8 = 8 from rfl]; norm_num
  have hi : 1 / (4 * (√3 * π)) ≤ 1 / 18 := one_div_le_one_div_of_le (by norm_num) (by linarith)
  rw [hT, ← e] at hd
  have h1 : (1e-5:ℝ) * (1 / 10) ≤ box.space.omega data3 (boxS (by norm_num)) (boxS (by norm_num)) * (1 / 2 / 2 - 1 / (4 * (√3 * π))) :=
    mul_le_mul hs (by linarith) (by norm_num) (le_trans (by norm_num) hs)
  have h2 := h1.trans hd
  change 0.9 * Spec.misfit box.space _ data3 box.sol3 0 - 1e-20 ≤ Spec.misfit box.space _ data3 box.sol3 _ at hge
  clear hd h1
  generalize Spec.misfit box.space (cfgBox B).D data3 box.sol3 0 = a at *
  generalize Spec.misfit box.space (cfgBox B).D data3 box.sol3 ((cfgBox B).full.field (cfgBox B).fe x) = b at *
  clear hs hT hi e
  norm_num at *
  linarith

/-- `C120_solve_3d_partial` has instances: the solution exists. -/
example : ∃ B om', construct LinearMap.id (Script.d3.args box.sol3 box.dsol3) (Script.d3.dataDomain data3) = (.ok B, om') ∧
    ∃ w₁ A x, scriptSetup (cfgBox B) (freshWorld fun _ => 0) = (.ok .rhs, w₁) ∧ (cfgBox B).Returns false A ∧
      (∀ d < A.size, A.mult x d = w₁.heap .rhs d) ∧
    0.9 * Spec.misfit box.space (cfgBox B).D data3 box.sol3 0 - 1e-20
      ≤ Spec.misfit box.space (cfgBox B).D data3 box.sol3 ((cfgBox B).full.field (cfgBox B).fe x) := by
  obtain ⟨B, om', hb, hC, hB, h⟩ := solveBox data3
  obtain ⟨w₁, A, x, ops, g1, g2, g3, -⟩ := h fun _ => 0
  exact ⟨B, om', hb, w₁, A, x, g1, g2, g3, C120_solve_3d_partial (C := cfgBox B) hb data3_fraction (by norm_num) hC hB rfl (q1_primal _)
    (freshWorld_fresh _) g1 g2 x g3⟩

end Example
end Dxss
