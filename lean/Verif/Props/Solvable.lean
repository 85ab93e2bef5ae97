import Verif.Lemmas.Kernel
import Verif.Props.Requests
import Verif.Props.Precond
import Mathlib.LinearAlgebra.FiniteDimensional.Basic

/-!
# Properties C15, C16 and C61: unique solvability of the assembled systems
-/

namespace Dxss
open Finset
set_option linter.unusedSectionVars false
variable {V : Type} [AddCommGroup V] [Module ℝ V]

/-- For every right-hand side there is exactly one solution vector (entries `0 … size-1`). -/
def Mat.UniquelySolvable (A : Mat) : Prop :=
  ∀ b : Vec, ∃ x : Vec, (∀ d < A.size, A.mult x d = b d) ∧
    ∀ y : Vec, (∀ d < A.size, A.mult y d = b d) → ∀ d < A.size, y d = x d

/-- Only the zero vector is mapped to zero. -/
def Mat.TrivialKernel (A : Mat) : Prop :=
  ∀ x : Vec, (∀ d < A.size, A.mult x d = 0) → ∀ d < A.size, x d = 0

theorem Mat.uniquelySolvable_of_kernel {A : Mat} (h : A.TrivialKernel) : A.UniquelySolvable := by
  let ext0 : (Fin A.size → ℝ) → Vec := fun v d => if hd : d < A.size then v ⟨d, hd⟩ else 0
  let f : (Fin A.size → ℝ) →ₗ[ℝ] (Fin A.size → ℝ) :=
    { toFun := fun v i => A.mult (ext0 v) i
      map_add' := fun v w => by
        have : ext0 (v + w) = ext0 v + ext0 w := by
          funext d; by_cases hd : d < A.size <;> simp [ext0, hd]
        funext i; rw [this, Mat.mult_add]; rfl
      map_smul' := fun r v => by
        have : ext0 (r • v) = r • ext0 v := by
          funext d; by_cases hd : d < A.size <;> simp [ext0, hd]
        funext i; rw [this, Mat.mult_smul]; rfl }
  have hinj : Function.Injective f := by
    rw [injective_iff_map_eq_zero]
    intro v hv
    have := h (ext0 v) (fun d hd => congrFun hv ⟨d, hd⟩)
    funext i
    simpa [ext0, i.2] using this i i.2
  have hsur : Function.Surjective f := LinearMap.injective_iff_surjective.1 hinj
  intro b
  obtain ⟨v, hv⟩ := hsur fun i => b i
  refine ⟨ext0 v, fun d hd => congrFun hv ⟨d, hd⟩, fun y hy d hd => ?_⟩
  have := h (y + (-1 : ℝ) • ext0 v) (fun d hd => by
    rw [Mat.mult_add, Mat.mult_smul]
    have e := congrFun hv ⟨d, hd⟩
    change A.mult (ext0 v) d = b d at e
    simp [hy d hd, e]) d hd
  simp only [Pi.add_apply, Pi.smul_apply, smul_eq_mul] at this
  linarith

/-- The finite-element basis functions are linearly independent. -/
def FE.Indep (fe : FE V) : Prop :=
  ∀ (c : Fin 4) (a : ℕ → ℝ), ∑ s ∈ range (fe.m c), a s • fe.basis c s = 0 →
    ∀ s < fe.m c, a s = 0

section
variable {L : FSpace} {fe : FE V} (hL : L.Ok fe.m)
include hL

/-- A vector whose discrete function vanishes is zero. -/
theorem vec_zero_of_field (hi : fe.Indep) {x : Vec}
    (h : ∀ c i, i < L.nsub c → L.field fe x c (i : ℕ) = 0) : ∀ d < L.size, x d = 0 := by
  intro d hd
  obtain ⟨c, i, s, h1, h2, rfl⟩ := hL.surj d hd
  have := h c i h1
  rw [FSpace.field, if_pos ⟨by positivity, by exact_mod_cast h1⟩] at this
  exact hi c (fun s => x (L.dof c i s)) (by simpa using this) s h2

/-- Changing the sign of the dual entries changes the sign of the dual components. -/
theorem exists_flip_sq (x : Vec) : ∃ x' : Vec, L.field fe x' = Spec.flipDual (L.field fe x) ∧
    ∀ d, x' d ^ 2 = x d ^ 2 := by
  classical
  refine ⟨fun d => if ∃ c i s, i < L.nsub c ∧ s < fe.m c ∧ (c = 2 ∨ c = 3) ∧ L.dof c i s = d
    then -x d else x d, ?_, fun d => by beta_reduce; split <;> simp⟩
  funext c i
  simp only [FSpace.field, Spec.flipDual]
  by_cases hi : 0 ≤ i ∧ i < L.nsub c
  · simp only [if_pos hi]
    have hi' : i.toNat < L.nsub c := by omega
    by_cases hc : c = 2 ∨ c = 3
    · rw [if_pos hc, ← sum_neg_distrib]
      refine sum_congr rfl fun s hs => ?_
      rw [if_pos ⟨c, i.toNat, s, hi', mem_range.1 hs, hc, rfl⟩, neg_smul]
    · rw [if_neg hc]
      refine sum_congr rfl fun s hs => ?_
      rw [if_neg]
      rintro ⟨c', i', s', h1, h2, h3, h4⟩
      exact hc ((hL.inj _ _ _ _ _ _ h1 h2 hi' (mem_range.1 hs) h4).1 ▸ h3)
  · simp only [if_neg hi]
    split <;> simp

theorem exists_flip (x : Vec) : ∃ x' : Vec, L.field fe x' = Spec.flipDual (L.field fe x) :=
  (exists_flip_sq hL x).imp fun _ h => h.1
end

/-- A vector of the full space whose field vanishes on every slab is zero. -/
theorem full_vec_zero {D : Disc V} {fe : FE V} (hi : fe.Indep) {L : FSpace} (hL : L.Ok fe.m)
    (hn : L.nsub = fullSizes D.q D.qstar D.N) {x : Vec}
    (hz : ∀ n < D.N, (∀ j ≤ D.q, L.field fe x 0 (n * (D.q + 1) + j) = 0 ∧ L.field fe x 1 (n * (D.q + 1) + j) = 0) ∧
      ∀ j ≤ D.qstar, L.field fe x 2 (n * (D.qstar + 1) + j) = 0 ∧ L.field fe x 3 (n * (D.qstar + 1) + j) = 0) :
    ∀ d < L.size, x d = 0 := by
  refine vec_zero_of_field hL hi fun c i hc => ?_
  rw [hn] at hc
  have split : ∀ (m : ℕ), i < (m + 1) * D.N → ∃ n < D.N, ∃ j ≤ m, (i : ℤ) = n * (m + 1) + j := by
    intro m hm
    refine ⟨i / (m + 1), Nat.div_lt_of_lt_mul (by rwa [mul_comm] at hm ⊢),
      i % (m + 1), Nat.lt_succ_iff.1 (Nat.mod_lt _ (Nat.succ_pos m)), ?_⟩
    have := Nat.div_add_mod i (m + 1)
    have : (i : ℤ) = ((m + 1) * (i / (m + 1)) + i % (m + 1) : ℕ) := by rw [this]
    rw [this]; push_cast; ring
  fin_cases c
  · obtain ⟨n, h1, j, h2, e⟩ := split D.q hc
    rw [e]; exact ((hz n h1).1 j h2).1
  · obtain ⟨n, h1, j, h2, e⟩ := split D.q hc
    rw [e]; exact ((hz n h1).1 j h2).2
  · obtain ⟨n, h1, j, h2, e⟩ := split D.qstar hc
    rw [e]; exact ((hz n h1).2 j h2).1
  · obtain ⟨n, h1, j, h2, e⟩ := split D.qstar hc
    rw [e]; exact ((hz n h1).2 j h2).2

/-- The space-time matrix on any dof numbering has trivial kernel. -/
theorem stForm_kernel {S : Space V} {D : Disc V} (h : D.Ok) {ind : V} (hS : S.Psd ind)
    (hd : S.Definite) (hp : D.Positive) (hwp : D.wellPosed = true) {fe : FE V} (hi : fe.Indep)
    {L : FSpace} (hL : L.Ok fe.m) (hn : L.nsub = fullSizes D.q D.qstar D.N) :
    (assemble S ind fe L (D.stForm false)).TrivialKernel := by
  intro x hx
  obtain ⟨x', hx'⟩ := exists_flip hL x
  have hpair := assemble_pair S ind (D.stForm false) fe L hL x x'
  rw [sum_eq_zero (fun d hd => by rw [hx d (mem_range.1 hd), zero_mul]), hx',
    C14_stability_identity S D h] at hpair
  refine full_vec_zero hi hL hn fun n hn => ?_
  have hz := kernel_energy h hS hp hwp (L.field fe x) (by linarith) (Nat.zero_lt_of_lt hn)
  exact energy_zero h hS hd hp hwp _ hz n hn

/-! ## C15 -/

/-- C15: with `well_posed=True`, whenever `get_spacetime_matrix()` returns a matrix (after any calls
that did not request the one-sided variant) the linear system with it has exactly one solution for
every right-hand side. -/
theorem C15_unique_solution {C : Cfg V} (hC : C.Ok) (hS : C.S.Psd C.D.ind) (hd : C.S.Definite)
    (hp : C.D.Positive) (hwp : C.D.wellPosed = true) (hi : C.fe.Indep) {w₀ : World V} (h₀ : w₀.Fresh)
    (ops : List (Op V)) (hops : ∀ op ∈ ops, ¬ op.OtherFlag false) {A : Mat} {w₁ : World V}
    (h : getSpacetimeMatrix C false (runOps C ops w₀) = (.ok A, w₁)) :
    A.size = C.full.size ∧ A.UniquelySolvable := by
  rw [(C32_same_flag_partial h₀ false ops hops).1 A w₁ h]
  exact ⟨rfl, Mat.uniquelySolvable_of_kernel
    (stForm_kernel hC.disc hS hd hp hwp hi hC.full hC.fullN)⟩

/-! ## C16 -/

/-- The one-slab, well-posed configuration without forward jumps. -/
def Disc.oneSlab (D : Disc V) : Disc V := { D with N := 1, wellPosed := true, jumpsFw := false }

/-- The slab form with jumps is the well-posed form for a single slab, plus (forward jumps only) the
terms of the lower interface. -/
theorem slabForm_oneSlab (S : Space V) (D : Disc V) (ind : V) (U W : Field V) :
    evalForm S ind (D.slabForm true) U W = evalForm S ind (D.oneSlab.stForm false) U W
      + if D.jumpsFw then
          (1 + D.eps) * (S.mass (U 1 0) (W 2 0) + S.mass (U 0 0) (W 3 0))
            - D.gDual * D.dt * (S.mass (U 2 0) (W 2 0) + S.mass (U 3 0) (W 3 0))
        else 0 := by
  have e1 : ∀ U : Field V, Field.slab D 0 U = U := by
    intro U; funext c i; simp [Field.slab]
  have key := evalForm_slab_jumps S { D with jumpsFw := false } ind U W 0 rfl
  have e1' : ∀ U : Field V, Field.slab { D with jumpsFw := false } 0 U = U := by
    intro U; funext c i; simp [Field.slab]
  rw [e1', e1'] at key
  have hst : evalForm S ind (D.oneSlab.stForm false) U W
      = evalForm S ind (({ D with jumpsFw := false } : Disc V).slabForm true) U W := by
    rw [key, stForm_decompose]
    simp [Disc.oneSlab, Disc.stInitial, Disc.stDualJump, Disc.stFwJump, Disc.stJump, evalForm_cons,
      Term.eval, SOp.eval, bottomEnergy, Spec.jumpForm, slabPlaceholder]
    simp only [Disc.core, Disc.stWave, Disc.stData, Disc.stAdj, Disc.stDual, Disc.stPrimal]
    ring
  rw [hst]
  cases hf : D.jumpsFw
  · have : ({ D with jumpsFw := false } : Disc V) = D := by cases D; simp_all
    rw [this]; simp
  · simp only [Disc.slabForm, evalForm_cons, evalForm_append, Disc.slabDualJump, Disc.slabJump, hf,
      Bool.and_true, if_true, Bool.false_eq_true, if_false, Bool.false_and, Bool.true_and,
      evalForm_nil, Disc.slabWave, Disc.slabData, Disc.slabAdj, Disc.slabDual, Disc.slabPrimal]
    simp only [Term.eval, eval_at, SOp.eval]
    ring

theorem Disc.Ok.oneSlab {D : Disc V} (h : D.Ok) : D.oneSlab.Ok := ⟨h.elmat, h.dt_ne⟩
theorem Disc.Positive.oneSlab {D : Disc V} (h : D.Positive) : D.oneSlab.Positive :=
  ⟨h.dt, h.lam, h.data, h.dual, h.primal, h.jump, h.dominates⟩

theorem slab_vec_zero {S : Space V} {D : Disc V} (h : D.Ok) {ind : V} (hS : S.Psd ind)
    (hd : S.Definite) (hp : D.Positive) {fe : FE V} (hi : fe.Indep)
    {L : FSpace} (hL : L.Ok fe.m) (hn : L.nsub = slabSizes D.q D.qstar) {x : Vec}
    (hz : Spec.energy S D.oneSlab ind (L.field fe x) = 0) : ∀ d < L.size, x d = 0 := by
  have hz := energy_zero h.oneSlab hS hd hp.oneSlab rfl _ hz 0 Nat.one_pos
  refine vec_zero_of_field hL hi fun c i hc => ?_
  rw [hn] at hc
  simp only [Nat.cast_zero, zero_mul, zero_add] at hz
  fin_cases c
  · exact (hz.1 i (Nat.lt_succ_iff.1 hc)).1
  · exact (hz.1 i (Nat.lt_succ_iff.1 hc)).2
  · exact (hz.2 i (Nat.lt_succ_iff.1 hc)).1
  · exact (hz.2 i (Nat.lt_succ_iff.1 hc)).2

theorem slabForm_kernel {S : Space V} {D : Disc V} (h : D.Ok) {ind : V} (hS : S.Psd ind)
    (hd : S.Definite) (hp : D.Positive) (hfw : D.jumpsFw = false) {fe : FE V} (hi : fe.Indep)
    {L : FSpace} (hL : L.Ok fe.m) (hn : L.nsub = slabSizes D.q D.qstar) :
    (assemble S ind fe L (D.slabForm true)).TrivialKernel := by
  intro x hx
  obtain ⟨x', hx'⟩ := exists_flip hL x
  have hpair := assemble_pair S ind (D.slabForm true) fe L hL x x'
  rw [sum_eq_zero (fun d hd => by rw [hx d (mem_range.1 hd), zero_mul]), hx', slabForm_oneSlab,
    C14_stability_identity S D.oneSlab h.oneSlab] at hpair
  simp only [hfw, Bool.false_eq_true, if_false, add_zero] at hpair
  exact slab_vec_zero h hS hd hp hi hL hn
    (kernel_energy h.oneSlab hS hp.oneSlab rfl (L.field fe x) (by linarith) Nat.one_pos)

theorem getSlabMatrix_eq {C : Cfg V} {w₀ : World V} (h₀ : w₀.Fresh) (ops : List (Op V)) {A : Mat}
    {w₁ : World V} (h : getSlabMatrix C (runOps C ops w₀) = (.ok (some A), w₁)) :
    A = slabMatOf C true := by
  have i₁ : Inv C w₁ := by
    have := (hist_getSlabMatrix (b := false) _ (inv_reach (C := C) h₀ ops)).1
    rw [h] at this; exact this
  refine i₁.slabMat A ?_
  unfold getSlabMatrix at h
  rw [M.bind_ok (M.get_run _)] at h
  have fin : ∀ w' : World V, (do
      let w' ← M.get
      return w'.obj.slabMat : WM V _) w' = (.ok (some A), w₁) → w₁.obj.slabMat = some A := fun w' e => by
    have e1 : w' = w₁ := congrArg Prod.snd e
    rw [← e1]; exact Except.ok.inj (congrArg Prod.fst e)
  split at h
  · obtain ⟨_, _, -, h⟩ := M.ok_bind h
    obtain ⟨_, _, -, h⟩ := M.ok_bind h
    exact fin _ h
  · exact fin _ h

/-- C16: without forward jumps, whenever `get_slab_matrix()` returns a matrix, after any calls, slab
systems with it have exactly one solution for every right-hand side.  No assumption on `well_posed`
or on the number of slabs. -/
theorem C16_slab_unique_solution {C : Cfg V} (hC : C.Ok) (hS : C.S.Psd C.D.ind) (hd : C.S.Definite)
    (hp : C.D.Positive) (hfw : C.D.jumpsFw = false) (hi : C.fe.Indep) {w₀ : World V} (h₀ : w₀.Fresh)
    (ops : List (Op V)) {A : Mat} {w₁ : World V}
    (h : getSlabMatrix C (runOps C ops w₀) = (.ok (some A), w₁)) :
    A.size = C.slab.size ∧ A.UniquelySolvable := by
  rw [getSlabMatrix_eq h₀ ops h]
  exact ⟨rfl, Mat.uniquelySolvable_of_kernel
    (slabForm_kernel hC.disc hS hd hp hfw hi hC.slab hC.slabN)⟩

/-! ## C61 -/

/-- The jump weights dominate the forward-jump coupling and the placeholder. -/
def Disc.FwDominated (D : Disc V) : Prop := (|1 + D.eps| + 1e-20) ^ 2 < 4 * (D.gJump * D.gDual)

/-- A positive definite combination of four vectors. -/
theorem cross_terms {S : Space V} {ind : V} (hS : S.Psd ind) {A B k e : ℝ} (hA : 0 < A) (hB : 0 < B)
    (he : 0 ≤ e) (hdom : (|k| + e) ^ 2 < 4 * (A * B)) {a a2 b1 b2 : V}
    (h : A * (S.mass a a + S.mass a2 a2) + B * (S.mass b1 b1 + S.mass b2 b2)
      ≤ k * (S.mass a2 b1 + S.mass a b2) + e * S.mass a b1) :
    S.mass a a = 0 ∧ S.mass a2 a2 = 0 ∧ S.mass b1 b1 = 0 ∧ S.mass b2 b2 = 0 := by
  have ha := hS.mass a; have ha2 := hS.mass a2; have hb1 := hS.mass b1; have hb2 := hS.mass b2
  have young : ∀ (c : ℝ) (x y : V), ∀ r > 0, c * S.mass x y ≤ |c| / 2 * (r * S.mass x x + 1 / r * S.mass y y) := by
    intro c x y r hr
    have sq : ∀ σ : ℝ, σ * σ = 1 → σ * S.mass x y ≤ 1 / 2 * (r * S.mass x x + 1 / r * S.mass y y) := by
      intro σ hσ
      have := hS.mass ((r * σ) • x - y)
      simp only [map_sub, map_smul, LinearMap.sub_apply, LinearMap.smul_apply, smul_eq_mul,
        S.mass_symm y x] at this
      have e1 : r * σ * (r * σ * S.mass x x) = r * (r * S.mass x x) := by
        calc _ = (σ * σ) * (r * (r * S.mass x x)) := by ring
          _ = _ := by rw [hσ, one_mul]
      have h3 : 0 ≤ r * (r * S.mass x x + 1 / r * S.mass y y - 2 * (σ * S.mass x y)) := by
        have : r * (1 / r * S.mass y y) = S.mass y y := by field_simp
        nlinarith
      have := nonneg_of_mul_nonneg_right h3 hr
      linarith
    rcases le_total 0 c with hc | hc
    · rw [abs_of_nonneg hc]
      have := mul_le_mul_of_nonneg_left (sq 1 (by norm_num)) hc
      linarith
    · rw [abs_of_nonpos hc]
      have := mul_le_mul_of_nonneg_left (sq (-1) (by norm_num)) (neg_nonneg.2 hc)
      linarith
  -- balance the two weights
  set r := Real.sqrt (A / B) with hr
  have hr0 : 0 < r := Real.sqrt_pos.2 (by positivity)
  have hrr : r * r = A / B := Real.mul_self_sqrt (by positivity)
  have hrB : r * r * B = A := by rw [hrr]; field_simp
  have y1 := young k a2 b1 r hr0
  have y2 := young k a b2 r hr0
  have y3 := young e a b1 r hr0
  rw [abs_of_nonneg he] at y3
  -- `g = r B = A / r` is the geometric mean
  set g := r * B with hg
  have hg0 : 0 < g := by positivity
  have hgg : g * g = A * B := by
    rw [hg, ← hrB]; ring
  have hgk : |k| + e < 2 * g := by
    have h0 : 0 ≤ |k| + e := add_nonneg (abs_nonneg k) he
    nlinarith
  have eA : A = r * g := by rw [hg, ← hrB]; ring
  have eB : B = 1 / r * g := by rw [hg]; field_simp
  have hk0 := abs_nonneg k
  have p1 : 0 ≤ r * S.mass a a := by positivity
  have p2 : 0 ≤ r * S.mass a2 a2 := by positivity
  have p3 : 0 ≤ 1 / r * S.mass b1 b1 := by positivity
  have p4 : 0 ≤ 1 / r * S.mass b2 b2 := by positivity
  rw [eA, eB] at h
  set x1 := r * S.mass a a with hx1
  set x2 := r * S.mass a2 a2 with hx2
  set x3 := 1 / r * S.mass b1 b1 with hx3
  set x4 := 1 / r * S.mass b2 b2 with hx4
  have h' : g * (x1 + x2 + x3 + x4) ≤ (|k| + e) / 2 * (x1 + x2 + x3 + x4) := by
    have t1 : r * g * (S.mass a a + S.mass a2 a2) = g * (x1 + x2) := by rw [hx1, hx2]; ring
    have t2 : 1 / r * g * (S.mass b1 b1 + S.mass b2 b2) = g * (x3 + x4) := by rw [hx3, hx4]; ring
    rw [t1, t2] at h
    have q2 : 0 ≤ e / 2 * (x2 + x4) := by positivity
    linarith
  have hs : (x1 + x2 + x3 + x4) ≤ 0 := by
    by_contra hne
    push Not at hne
    nlinarith
  have hrinv : (1 / r : ℝ) ≠ 0 := by positivity
  refine ⟨?_, ?_, ?_, ?_⟩
  · exact (mul_eq_zero.1 (by linarith : r * S.mass a a = 0)).resolve_left hr0.ne'
  · exact (mul_eq_zero.1 (by linarith : r * S.mass a2 a2 = 0)).resolve_left hr0.ne'
  · exact (mul_eq_zero.1 (by linarith : 1 / r * S.mass b1 b1 = 0)).resolve_left hrinv
  · exact (mul_eq_zero.1 (by linarith : 1 / r * S.mass b2 b2 = 0)).resolve_left hrinv

theorem slabForm_kernel_fw {S : Space V} {D : Disc V} (h : D.Ok) {ind : V} (hS : S.Psd ind)
    (hd : S.Definite) (hp : D.Positive) (hdom : D.FwDominated) (hfw : D.jumpsFw = true) {fe : FE V}
    (hi : fe.Indep) {L : FSpace} (hL : L.Ok fe.m) (hn : L.nsub = slabSizes D.q D.qstar) :
    (assemble S ind fe L (D.slabForm true)).TrivialKernel := by
  intro x hx
  obtain ⟨x', hx'⟩ := exists_flip hL x
  have hpair := assemble_pair S ind (D.slabForm true) fe L hL x x'
  rw [sum_eq_zero (fun d hd => by rw [hx d (mem_range.1 hd), zero_mul]), hx', slabForm_oneSlab,
    C14_stability_identity S D.oneSlab h.oneSlab] at hpair
  simp only [hfw, if_true, flipDual_2, flipDual_3, map_neg] at hpair
  refine slab_vec_zero h hS hd hp hi hL hn ?_
  set U := L.field fe x
  have hw := hp.oneSlab.weights
  have hdt := hp.dt
  have hE0 := C14_energy_nonneg S D.oneSlab ind hS hw U
  have hEb : D.gJump * (1 / D.dt) * (S.mass (U 0 0) (U 0 0) + S.mass (U 1 0) (U 1 0))
      ≤ Spec.energy S D.oneSlab ind U := by
    have e1 : Spec.energy S D.oneSlab ind U
        = (∫ t in ((0 : ℕ) * D.dt)..((0 + 1 : ℕ) * D.dt), eDens S D.oneSlab ind U 0 t)
          + eBot S D.oneSlab U 0 := by
      rw [energy_eq]
      exact sum_range_one _
    have e2 := eInt_nonneg U hS hw 0
    have e : ∀ F : ℤ → V, Spec.val D.q D.dt 0 F 0 = F 0 := by
      intro F; simpa using val_bottom h.hq D.dt 0 F
    have e3 : eBot S D.oneSlab U 0 = D.gJump * Spec.jumpForm S D.dt (U 0 0) (U 1 0) (U 0 0) (U 1 0) := by
      simp only [eBot, Disc.oneSlab, if_true, e]
    have hst := mul_nonneg hp.jump.le (mul_nonneg hdt.le (hS.stiff (U 0 0)))
    rw [e1, e3, Spec.jumpForm]
    have e2' : 0 ≤ ∫ t in ((0 : ℕ) * D.dt)..((0 + 1 : ℕ) * D.dt), eDens S D.oneSlab ind U 0 t := e2
    refine le_trans ?_ (le_add_of_nonneg_left e2')
    linarith
  have hcr := cross_terms hS (A := D.gJump * (1 / D.dt)) (B := D.gDual * D.dt) (k := 1 + D.eps)
    (e := 1e-20) (a := U 0 0) (a2 := U 1 0) (b1 := U 2 0) (b2 := U 3 0)
    (by have := hp.jump; positivity) (by have := hp.dual; positivity) (by norm_num)
    (by
      have e : D.gJump * (1 / D.dt) * (D.gDual * D.dt) = D.gJump * D.gDual := by field_simp
      rw [e]; exact hdom)
    (by linarith)
  obtain ⟨h1, h2, h3, h4⟩ := hcr
  have z1 := hd.mass _ h1; have z2 := hd.mass _ h2; have z3 := hd.mass _ h3; have z4 := hd.mass _ h4
  simp only [z1, z2, z3, z4, map_zero, LinearMap.zero_apply] at hpair
  linarith

/-- C61: with forward jumps, the slab matrix is non-singular as soon as the jump weights dominate the
forward coupling `1 + eps` (and the placeholder). -/
theorem C61_slab_forward_jumps {C : Cfg V} (hC : C.Ok) (hS : C.S.Psd C.D.ind) (hd : C.S.Definite)
    (hp : C.D.Positive) (hdom : C.D.FwDominated) (hi : C.fe.Indep) {w₀ : World V} (h₀ : w₀.Fresh)
    (ops : List (Op V)) {A : Mat} {w₁ : World V}
    (h : getSlabMatrix C (runOps C ops w₀) = (.ok (some A), w₁)) :
    A.size = C.slab.size ∧ A.UniquelySolvable := by
  cases hfw : C.D.jumpsFw
  · exact C16_slab_unique_solution hC hS hd hp hfw hi h₀ ops h
  · rw [getSlabMatrix_eq h₀ ops h]
    exact ⟨rfl, Mat.uniquelySolvable_of_kernel
      (slabForm_kernel_fw hC.disc hS hd hp hdom hfw hi hC.slab hC.slabN)⟩

/-! ## C62 -/

/-- A unit vector of block `n` of the full space, seen from block `k`. -/
theorem full_unit_field {C : Cfg V} (hC : C.Ok) {n k : ℕ} (hn : n < C.D.N) (hk : k < C.D.N) {c : Fin 4} {l s : ℕ}
    (hl : l < C.slab.nsub c) (hs : s < C.fe.m c) (c' : Fin 4) :
    C.full.field C.fe (unitVec (C.full.dof c (slabIx C.D n c l) s)) c' (slabIx C.D k c' 0 : ℕ)
      = if k = n then C.slab.field C.fe (unitVec (C.slab.dof c l s)) c' 0 else 0 := by
  have h0 : ∀ c', 0 < C.slab.nsub c' := fun c' => by
    rw [hC.slabN, slabSizes_eq]; omega
  have h1 := congrFun (congrFun (field_pull (emb_slab hC hk)
    (unitVec (C.full.dof c (slabIx C.D n c l) s))) c') (0 : ℕ)
  rw [sub_slab _ _ _ (h0 c')] at h1
  rw [← h1]
  split
  · rename_i h; subst h
    rw [field_congr C.slab C.fe hC.slab (y := unitVec (C.slab.dof c l s))]
    · rfl
    intro e he
    obtain ⟨c₁, l₁, s₁, h2, h3, rfl⟩ := hC.slab.surj e he
    rw [pull_dof (emb_slab hC hk) _ h2 h3]
    unfold unitVec
    congr 1
    refine propext ⟨fun h => ?_, fun h => ?_⟩
    · obtain ⟨rfl, h4, rfl⟩ := hC.full.inj _ _ _ _ _ _ ((emb_slab hC hk).range _ _ h2) h3
        ((emb_slab hC hk).range _ _ hl) hs h
      rw [(emb_slab hC hk).inj _ _ _ h2 hl h4]
    · obtain ⟨rfl, rfl, rfl⟩ := hC.slab.inj _ _ _ _ _ _ h2 h3 hl hs h
      rfl
  · rename_i h
    rw [field_congr C.slab C.fe hC.slab (y := 0), field_zero]
    · rfl
    intro e he
    obtain ⟨c₁, l₁, s₁, h2, h3, rfl⟩ := hC.slab.surj e he
    rw [pull_dof (emb_slab hC hk) _ h2 h3]
    have := pushS_dof hC hk hn (unitVec (C.slab.dof c l s)) h2 h3
    unfold unitVec
    rw [if_neg]
    · rfl
    intro h'
    rw [h', pushS_dof hC hn hn _ hl hs, if_pos rfl, if_neg (Ne.symm h)] at this
    simp [unitVec] at this

theorem oneSided_kernel_of_first {C : Cfg V} (hC : C.Ok) (hS : C.S.Psd C.D.ind) (hd : C.S.Definite)
    (hp : C.D.Positive) (hfirst : (slabMatOf C C.D.wellPosed).TrivialKernel) (hfw : C.D.jumpsFw = false)
    (hi : C.fe.Indep) : (stMatOf C true).TrivialKernel := by
  intro x hx
  have hx : ∀ d < C.full.size, (stMatOf C true).mult x d = 0 := hx
  have hm : ∀ (k : ℕ) (c : Fin 4), ((slabIx C.D k c 0 : ℕ) : ℤ) = k * (C.D.timeOrder c + 1) := by
    intro k c; simp [slabIx]
  have hblock : ∀ n < C.D.N, ∀ e < C.slab.size, pBlock C x n e = if n = 0 then 0 else
      1e-20 * C.S.mass (C.slab.field C.fe (pullS C n x) 0 0) (C.slab.field C.fe (unitVec e) 2 0) := by
    intro n hn e he
    obtain ⟨c, l, s, hl, hs, rfl⟩ := hC.slab.surj e he
    have hdlt := hC.full.lt c _ s ((emb_slab hC hn).range c l hl) hs
    have h1 := pOp_eq hC (by omega) hfw x hdlt
    rw [hx _ hdlt, sum_pushS_dof hC _ hn hl hs, zero_add] at h1
    rw [← h1, pPlaceholders, sum_eq_single n]
    · split
      · rfl
      · have e2 := full_unit_field hC hn hn hl hs 2
        rw [if_pos rfl, hm] at e2
        have e3 := congrFun (congrFun (field_pull (emb_slab hC hn) x) 0) (0 : ℕ)
        rw [sub_slab _ _ _ (by rw [hC.slabN, slabSizes_eq]; omega), hm] at e3
        change C.full.field C.fe (unitVec (C.full.dof c (slabIx C.D n c l) s)) 2 (n * (C.D.qstar + 1)) = _ at e2
        rw [e2]
        change C.slab.field C.fe (pullS C n x) 0 0 = C.full.field C.fe x 0 (n * (C.D.q + 1)) at e3
        rw [e3]
    · intro k hk hne
      split
      · rfl
      · have e2 := full_unit_field hC hn (mem_range.1 hk) hl hs 2
        rw [if_neg hne, hm] at e2
        change C.full.field C.fe (unitVec (C.full.dof c (slabIx C.D n c l) s)) 2 (k * (C.D.qstar + 1)) = _ at e2
        rw [e2, map_zero, mul_zero]
    · intro h; exact absurd (mem_range.2 hn) h
  have hz : ∀ n < C.D.N, ∀ e < C.slab.size, pullS C n x e = 0 := by
    intro n
    induction n with
    | zero =>
      intro hn
      refine hfirst _ fun e he => ?_
      have := hblock 0 hn e he
      rw [if_pos rfl, pBlock, slabOp, if_pos rfl] at this
      exact this
    | succ n ih =>
      intro hn
      have ih := ih (by omega)
      have hc : carry C (pullS C n x) = 0 := by
        rw [carry_congr hC (v := 0) ih]
        funext d
        rw [carry_apply hC, field_zero]
        simp [Spec.jumpForm]
      set v := pullS C (n + 1) x with hv
      obtain ⟨y, hy⟩ := exists_flip hC.slab v
      have hpair := assemble_pair C.S C.D.ind (C.D.slabForm true) C.fe C.slab hC.slab v y
      have hsum : ∑ e ∈ range C.slab.size,
            (assemble C.S C.D.ind C.fe C.slab (C.D.slabForm true)).mult v e * y e
          = 1e-20 * C.S.mass (C.slab.field C.fe v 0 0) (C.slab.field C.fe y 2 0) := by
        rw [field_eq_sum C.slab C.fe hC.slab y, Finset.sum_apply, Finset.sum_apply, map_sum, mul_sum]
        refine sum_congr rfl fun e he => ?_
        have := hblock (n + 1) hn e (mem_range.1 he)
        rw [if_neg (Nat.succ_ne_zero n), pBlock, slabOp, if_neg (Nat.succ_ne_zero n), hc, sub_zero] at this
        change (slabMatOf C true).mult v e * y e = _
        rw [this]
        simp only [Pi.smul_apply, map_smul, smul_eq_mul]
        ring
      rw [hsum, hy, slabForm_oneSlab, C14_stability_identity C.S C.D.oneSlab hC.disc.oneSlab, flipDual_2] at hpair
      simp only [hfw, Bool.false_eq_true, if_false, add_zero, map_neg] at hpair
      exact slab_vec_zero hC.disc hS hd hp hi hC.slab hC.slabN (by linarith)
  intro d hdlt
  rw [← sum_push_pull hC x hdlt]
  obtain ⟨n, c, l, s, hn, hl, hs, rfl⟩ := full_surj hC hdlt
  rw [sum_pushS_dof hC _ hn hl hs]
  exact hz n hn _ (hC.slab.lt c l s hl hs)

theorem oneSided_kernel {C : Cfg V} (hC : C.Ok) (hS : C.S.Psd C.D.ind) (hd : C.S.Definite)
    (hp : C.D.Positive) (hwp : C.D.wellPosed = true) (hfw : C.D.jumpsFw = false) (hi : C.fe.Indep) :
    (stMatOf C true).TrivialKernel :=
  oneSided_kernel_of_first hC hS hd hp
    (by rw [hwp]; exact slabForm_kernel hC.disc hS hd hp hfw hi hC.slab hC.slabN) hfw hi

/-- C62: in the well-posed configuration without forward jumps the one-sided matrix
`get_spacetime_matrix(precond=True)` is non-singular too. -/
theorem C62_one_sided_unique_solution {C : Cfg V} (hC : C.Ok) (hS : C.S.Psd C.D.ind) (hd : C.S.Definite)
    (hp : C.D.Positive) (hwp : C.D.wellPosed = true) (hfw : C.D.jumpsFw = false) (hi : C.fe.Indep)
    {w₀ : World V} (h₀ : w₀.Fresh) (ops : List (Op V)) (hops : ∀ op ∈ ops, ¬ op.OtherFlag true) {A : Mat}
    {w₁ : World V} (h : getSpacetimeMatrix C true (runOps C ops w₀) = (.ok A, w₁)) :
    A.size = C.full.size ∧ A.UniquelySolvable := by
  rw [(C32_same_flag_partial h₀ true ops hops).1 A w₁ h]
  exact ⟨rfl, Mat.uniquelySolvable_of_kernel (oneSided_kernel hC hS hd hp hwp hfw hi)⟩

/-- C62, solver side: exact slab solvers exist, never raise, and meet the hypotheses of C20. -/
theorem C62_exact_slab_solvers {C : Cfg V} (hC : C.Ok) (hS : C.S.Psd C.D.ind) (hd : C.S.Definite)
    (hp : C.D.Positive) (hwp : C.D.wellPosed = true) (hfw : C.D.jumpsFw = false) (hi : C.fe.Indep) :
    ∃ f : Vec → Py Vec, (∀ r, ∃ u, f r = .ok u) ∧ Solves f (slabMatOf C true) ∧
      Solves f (slabMatOf C C.D.wellPosed) ∧
      ∀ r u u', f r = .ok u → (∀ e < C.slab.size, (slabMatOf C true).mult u' e = r e) →
        ∀ e < C.slab.size, u' e = u e := by
  have hu := Mat.uniquelySolvable_of_kernel (slabForm_kernel hC.disc hS hd hp hfw hi hC.slab hC.slabN)
  choose g hg using hu
  refine ⟨fun r => .ok (g r), fun r => ⟨_, rfl⟩, ?_, ?_, ?_⟩
  · rintro r u h e he; cases h; exact (hg r).1 e he
  · rw [hwp]; rintro r u h e he; cases h; exact (hg r).1 e he
  · rintro r u u' h h' e he; cases h; exact (hg r).2 u' h' e he

/-! ## Non-vacuity -/

namespace Example
open Polynomial

theorem polySpace_definite : polySpace.Definite where
  mass v h := by by_contra hv; exact (polySpace_mass_pos hv).ne' h
  h2 v h := I_sq_eq_zero h

theorem disc_positive (fw wp : Bool) : (disc fw wp).Positive := by
  constructor <;> norm_num [disc]

theorem disc_fwDominated (fw wp : Bool) : (disc fw wp).FwDominated := by
  norm_num [Disc.FwDominated, disc]

theorem fe_indep : fe.Indep := by
  have hP : ∀ a : ℕ → ℝ, a 0 • (1 - X : ℝ[X]) + a 1 • X = 0 → a 0 = 0 ∧ a 1 = 0 := by
    intro a h
    have h0 := congrArg (eval 0) h
    have h1 := congrArg (eval 1) h
    simp at h0 h1
    exact ⟨h0, h1⟩
  intro c a h s hs
  fin_cases c
  · simp [FE.m, FE.basis, fe, sum_range_succ] at h hs
    obtain ⟨h0, h1⟩ := hP a h
    interval_cases s <;> assumption
  · simp [FE.m, FE.basis, fe, sum_range_succ] at h hs
    obtain ⟨h0, h1⟩ := hP a h
    interval_cases s <;> assumption
  · simp [FE.m, FE.basis, fe] at h hs
    rw [hs]; exact h
  · simp [FE.m, FE.basis, fe] at h hs
    rw [hs]; exact h

/-- C15 applies to the two-slab example, with and without forward jumps. -/
example (fw : Bool) (heap : Ref → Vec) : ∃ A w₁,
    getSpacetimeMatrix (cfg fw true) false (runOps (cfg fw true) [.setupFE] (freshWorld heap)) = (.ok A, w₁) ∧
      A.size = 24 ∧ A.UniquelySolvable := by
  obtain ⟨w₁, h⟩ := getMatrix_ok (cfg fw true) false heap
  have := C15_unique_solution (cfg_ok fw true) polySpace_psd polySpace_definite (disc_positive fw true) rfl
    fe_indep (freshWorld_fresh heap) [.setupFE] (by simp [Op.OtherFlag]) h
  exact ⟨_, w₁, h, this.1.trans rfl, this.2⟩

/-- C62 applies to the two-slab example. -/
example (heap : Ref → Vec) : ∃ A w₁,
    getSpacetimeMatrix (cfg false true) true (runOps (cfg false true) [.setupFE] (freshWorld heap)) = (.ok A, w₁) ∧
      A.UniquelySolvable := by
  obtain ⟨w₁, h⟩ := getMatrix_ok (cfg false true) true heap
  exact ⟨_, w₁, h, (C62_one_sided_unique_solution (cfg_ok false true) polySpace_psd polySpace_definite
    (disc_positive false true) rfl rfl fe_indep (freshWorld_fresh heap) [.setupFE] (by simp [Op.OtherFlag]) h).2⟩
example := C62_exact_slab_solvers (cfg_ok false true) polySpace_psd polySpace_definite
    (disc_positive false true) rfl rfl fe_indep

/-- C16 and C61 apply to the example. -/
example (fw wp : Bool) (heap : Ref → Vec) : ∃ A w₁,
    getSlabMatrix (cfg fw wp) (runOps (cfg fw wp) [.setupFE] (freshWorld heap)) = (.ok (some A), w₁) ∧
      A.UniquelySolvable := by
  have hs : (setupFE (cfg fw wp) (freshWorld heap)).2.obj = setUpObj (cfg fw wp) 0 0 :=
    (setupFE_fresh (freshWorld_fresh heap) (freshWorld_noFail heap)).2
  obtain ⟨w₁, -, h, -, -⟩ := early_slab_run (C := cfg fw wp) (w := (setupFE (cfg fw wp) (freshWorld heap)).2) hs
    fun _ _ => rfl
  exact ⟨_, w₁, h, (C61_slab_forward_jumps (cfg_ok fw wp) polySpace_psd polySpace_definite (disc_positive fw wp)
    (disc_fwDominated fw wp) fe_indep (freshWorld_fresh heap) [.setupFE] h).2⟩

end Example
end Dxss
