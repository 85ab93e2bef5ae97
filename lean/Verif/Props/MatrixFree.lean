import Verif.Lemmas.Decompose
import Verif.Example.Layout

/-!
# Properties C17–C19: the matrix-free product
-/

namespace Dxss
open Finset
set_option linter.unusedSectionVars false
variable {V : Type} [AddCommGroup V] [Module ℝ V] {C : Cfg V}

/-! ### the operator -/

theorem mfPart_eq (hC : C.Ok) (x : Vec) {n : ℕ} (hn : n < C.D.N) (d : ℕ) :
    mfPart C x n d =
      evalForm C.S C.D.ind (C.D.slabForm false) (Field.slab C.D n (C.full.field C.fe x))
        (Field.slab C.D n (C.full.field C.fe (unitVec d)))
      + if 0 < n then evalForm C.S C.D.ind C.D.couplingForm
          (Field.coup C.D n (C.full.field C.fe x))
          (Field.coup C.D n (C.full.field C.fe (unitVec d))) else 0 := by
  rw [mfPart, Pi.add_apply]
  congr 1
  · rw [slabMatOf, push_assemble _ _ _ (emb_slab hC hn), field_pull (emb_slab hC hn),
      field_pull (emb_slab hC hn)]
    exact evalForm_congr (C11_slab_indices C.D false) _ _ (sub_slab_congr hC _ n)
      (sub_slab_congr hC _ n)
  · split
    · rename_i h0
      rw [coupMatOf, push_assemble _ _ _ (emb_coup hC h0 hn), field_pull (emb_coup hC h0 hn),
        field_pull (emb_coup hC h0 hn)]
      exact evalForm_congr (C11_coupling_indices C.D) _ _ (sub_coup_congr hC _ h0)
        (sub_coup_congr hC _ h0)
    · rfl

/-- The placeholder terms by which the matrix-free product exceeds the assembled one: each slab
matrix and each coupling matrix has its own `1e-20` summand, the assembled matrix has one. -/
noncomputable def mfPlaceholders (S : Space V) (D : Disc V) (U W : Field V) : ℝ :=
  ∑ n ∈ range D.N, if n = 0 then 0 else
    1e-20 * (S.mass (U 0 (n * (D.q + 1))) (W 2 (n * (D.qstar + 1)))
      + S.mass (U 0 (n * (D.q + 1) - 1)) (W 0 (n * (D.q + 1) - 1)))

/-- The terms of the variational form that the matrix-free product omits: the initial-data terms
(`well_posed`) and the forward-jump terms (`jumps_in_fw_problem`). -/
noncomputable def mfMissing (S : Space V) (D : Disc V) (U W : Field V) : ℝ :=
  (if D.wellPosed then D.gJump * Spec.jumpForm S D.dt (U 0 0) (U 1 0) (W 0 0) (W 1 0) else 0)
  + ∑ n ∈ range D.N, if n = 0 then 0 else
    if D.jumpsFw then
      let i : ℤ := n * (D.q + 1)
      let k : ℤ := n * (D.qstar + 1)
      (1 + D.eps) * (S.mass (U 2 k) (W 1 i - W 1 (i - 1)) + S.mass (U 3 k) (W 0 i - W 0 (i - 1))
        + S.mass (U 0 i - U 0 (i - 1)) (W 3 k) + S.mass (U 1 i - U 1 (i - 1)) (W 2 k))
      - D.gDual * D.dt * (S.mass (U 2 k) (W 2 k) + S.mass (U 3 k) (W 3 k))
    else 0

theorem mfOp_eq (hC : C.Ok) (hN : 1 ≤ C.D.N) (x : Vec) {d : ℕ} (hd : d < C.full.size) :
    let U := C.full.field C.fe x
    let W := C.full.field C.fe (unitVec d)
    mfOp C x d + mfMissing C.S C.D U W
      = (stMatOf C false).mult x d + mfPlaceholders C.S C.D U W := by
  intro U W
  rw [stMatOf, assemble_mult _ _ _ _ _ hC.full _ hd, stForm_decompose, mfOp, Finset.sum_apply,
    sum_congr rfl fun n hn => mfPart_eq hC x (mem_range.1 hn) d]
  change _ = slabPlaceholder C.S C.D U W 0 + _ + _
  obtain ⟨N', hN'⟩ : ∃ N', C.D.N = N' + 1 := ⟨C.D.N - 1, by omega⟩
  simp only [mfMissing, mfPlaceholders, hN', sum_range_succ' _ N']
  simp only [Nat.lt_irrefl, if_false, if_true, Nat.succ_pos, Nat.succ_ne_zero]
  have e0 := evalForm_slab_noJumps C.S C.D C.D.ind U W 0
  have ei : evalForm C.S C.D.ind (C.D.stInitial 0) U W
      = if C.D.wellPosed then C.D.gJump * Spec.jumpForm C.S C.D.dt (U 0 0) (U 1 0) (W 0 0) (W 1 0)
        else 0 := by
    cases hw : C.D.wellPosed <;> simp [Disc.stInitial, hw, Term.eval, SOp.eval, Spec.jumpForm]
    ring
  have z1 : evalForm C.S C.D.ind (C.D.stDualJump (ctr C.D.q C.D.qstar 0) 0) U W = 0 := by
    simp [Disc.stDualJump]
  have z2 : evalForm C.S C.D.ind (C.D.stFwJump (ctr C.D.q C.D.qstar 0) 0) U W = 0 := by
    simp [Disc.stFwJump]
  have z3 : evalForm C.S C.D.ind (C.D.stJump false (ctr C.D.q C.D.qstar 0) 0) U W = 0 := by
    simp [Disc.stJump]
  have hs : ∀ n : ℕ, evalForm C.S C.D.ind (C.D.slabForm false) (Field.slab C.D (n + 1) U)
        (Field.slab C.D (n + 1) W)
      + evalForm C.S C.D.ind C.D.couplingForm (Field.coup C.D (n + 1) U) (Field.coup C.D (n + 1) W)
      + (if C.D.jumpsFw then
          let i : ℤ := (n + 1 : ℕ) * (C.D.q + 1)
          let k : ℤ := (n + 1 : ℕ) * (C.D.qstar + 1)
          (1 + C.D.eps) * (C.S.mass (U 2 k) (W 1 i - W 1 (i - 1))
            + C.S.mass (U 3 k) (W 0 i - W 0 (i - 1))
            + C.S.mass (U 0 i - U 0 (i - 1)) (W 3 k) + C.S.mass (U 1 i - U 1 (i - 1)) (W 2 k))
          - C.D.gDual * C.D.dt * (C.S.mass (U 2 k) (W 2 k) + C.S.mass (U 3 k) (W 3 k))
        else 0)
      = evalForm C.S C.D.ind (C.D.core (ctr C.D.q C.D.qstar (n + 1))) U W
          + evalForm C.S C.D.ind (C.D.stInitial (n + 1)) U W
          + (evalForm C.S C.D.ind (C.D.stDualJump (ctr C.D.q C.D.qstar (n + 1)) (n + 1)) U W
            + evalForm C.S C.D.ind (C.D.stFwJump (ctr C.D.q C.D.qstar (n + 1)) (n + 1)) U W)
          + evalForm C.S C.D.ind (C.D.stJump false (ctr C.D.q C.D.qstar (n + 1)) (n + 1)) U W
        + 1e-20 * (C.S.mass (U 0 ((n + 1 : ℕ) * (C.D.q + 1))) (W 2 ((n + 1 : ℕ) * (C.D.qstar + 1)))
          + C.S.mass (U 0 ((n + 1 : ℕ) * (C.D.q + 1) - 1)) (W 0 ((n + 1 : ℕ) * (C.D.q + 1) - 1))) := by
    intro n
    rw [evalForm_slab_noJumps, evalForm_coup _ _ _ _ _ _ (Nat.succ_pos n)]
    have a1 : evalForm C.S C.D.ind (C.D.stInitial (n + 1)) U W = 0 := by simp [Disc.stInitial]
    have a2 : evalForm C.S C.D.ind (C.D.stDualJump (ctr C.D.q C.D.qstar (n + 1)) (n + 1)) U W
        + evalForm C.S C.D.ind (C.D.stFwJump (ctr C.D.q C.D.qstar (n + 1)) (n + 1)) U W
        = if C.D.jumpsFw then
          let i : ℤ := (n + 1 : ℕ) * (C.D.q + 1)
          let k : ℤ := (n + 1 : ℕ) * (C.D.qstar + 1)
          (1 + C.D.eps) * (C.S.mass (U 2 k) (W 1 i - W 1 (i - 1))
            + C.S.mass (U 3 k) (W 0 i - W 0 (i - 1))
            + C.S.mass (U 0 i - U 0 (i - 1)) (W 3 k) + C.S.mass (U 1 i - U 1 (i - 1)) (W 2 k))
          - C.D.gDual * C.D.dt * (C.S.mass (U 2 k) (W 2 k) + C.S.mass (U 3 k) (W 3 k))
        else 0 := by
      have i1 : (ctr C.D.q C.D.qstar (n + 1)).couplingQ + 1 = (n + 1 : ℕ) * (C.D.q + 1) := by
        simp [ctr]
      have i2 : (ctr C.D.q C.D.qstar (n + 1)).couplingQs + 1 = (n + 1 : ℕ) * (C.D.qstar + 1) := by
        simp [ctr]
      have i3 : (ctr C.D.q C.D.qstar (n + 1)).couplingQ = (n + 1 : ℕ) * (C.D.q + 1) - 1 := rfl
      cases hj : C.D.jumpsFw
      · simp [Disc.stDualJump, Disc.stFwJump, hj]
      · simp only [Disc.stDualJump, Disc.stFwJump, hj, Nat.succ_pos, decide_true, Bool.and_true,
          if_true, i1, i2]
        simp only [i3, evalForm_cons, evalForm_nil, Term.eval, eval_at, eval_diff, SOp.eval]
        ring
    rw [a1, a2, slabPlaceholder, coupPlaceholder]
    ring
  rw [e0, ei, z1, z2, z3]
  have hs' := sum_congr (rfl : range N' = range N') fun n _ => hs n
  simp only [sum_add_distrib] at hs' ⊢
  linarith

/-! ## C17 -/

/-- C17: without forward jumps and with `well_posed=False`, the matrix-free product of any vector is
the product with the assembled matrix plus the explicit placeholder terms. -/
theorem C17_matrix_free_product (hC : C.Ok) (hN : 1 ≤ C.D.N) (hfw : C.D.jumpsFw = false)
    (hwp : C.D.wellPosed = false) (w : World V) (hw : MfReady C w.obj) (vin vout : Ref)
    (hi : vin ∉ mfScratch) (ho : vout ∉ mfScratch) (hne : vin ≠ vout) :
    ∃ w', applySpacetimeMatrix C vin vout w = (.ok (), w') ∧
      ∀ d < C.full.size, w'.heap vout d = (stMatOf C false).mult (w.heap vin) d
        + mfPlaceholders C.S C.D (C.full.field C.fe (w.heap vin)) (C.full.field C.fe (unitVec d)) := by
  obtain ⟨w', h1, -, -, -, -, h2⟩ := apply_run hC hw hi ho
  refine ⟨w', h1, fun d hd => ?_⟩
  have := mfOp_eq hC hN (w.heap vin) hd
  rw [h2, if_neg hne, ← this]
  simp [mfMissing, hfw, hwp]

/-! ## C18 -/

/-- The full statement of C18.  It is false, see `C18_violated`. -/
def C18_statement (V : Type) [AddCommGroup V] [Module ℝ V] : Prop :=
  ∀ (C : Cfg V), C.Ok → 1 ≤ C.D.N → ∀ (w : World V), MfReady C w.obj → ∀ (vin vout : Ref),
    vin ∉ mfScratch → vout ∉ mfScratch → vin ≠ vout →
    ∃ w', applySpacetimeMatrix C vin vout w = (.ok (), w') ∧
      ∀ d < C.full.size, w'.heap vout d = (stMatOf C false).mult (w.heap vin) d
        + mfPlaceholders C.S C.D (C.full.field C.fe (w.heap vin)) (C.full.field C.fe (unitVec d))

/-- C18: in every configuration, the matrix-free product plus the terms it omits is the assembled
product plus the placeholders. -/
theorem C18_exact_discrepancy_partial (hC : C.Ok) (hN : 1 ≤ C.D.N) (w : World V) (hw : MfReady C w.obj)
    (vin vout : Ref) (hi : vin ∉ mfScratch) (ho : vout ∉ mfScratch) (hne : vin ≠ vout) :
    ∃ w', applySpacetimeMatrix C vin vout w = (.ok (), w') ∧
      ∀ d < C.full.size,
        w'.heap vout d + mfMissing C.S C.D (C.full.field C.fe (w.heap vin)) (C.full.field C.fe (unitVec d))
          = (stMatOf C false).mult (w.heap vin) d
            + mfPlaceholders C.S C.D (C.full.field C.fe (w.heap vin)) (C.full.field C.fe (unitVec d)) := by
  obtain ⟨w', h1, -, -, -, -, h2⟩ := apply_run hC hw hi ho
  refine ⟨w', h1, fun d hd => ?_⟩
  rw [h2, if_neg hne, mfOp_eq hC hN (w.heap vin) hd]

theorem field_unit (hC : C.Ok) {c : Fin 4} {i s : ℕ} (hi : i < C.full.nsub c) (hs : s < C.fe.m c)
    (c' : Fin 4) (i' : ℤ) :
    C.full.field C.fe (unitVec (C.full.dof c i s)) c' i'
      = if c' = c ∧ i' = i then C.fe.basis c s else 0 := by
  simp only [FSpace.field]
  by_cases h : c' = c ∧ i' = i
  · obtain ⟨rfl, rfl⟩ := h
    rw [if_pos ⟨by positivity, by exact_mod_cast hi⟩, if_pos ⟨rfl, rfl⟩, sum_eq_single s]
    · simp [unitVec]
    · intro s' hs' hne
      simp only [unitVec, Int.toNat_natCast]
      rw [if_neg, zero_smul]
      intro he
      exact hne (hC.full.inj _ _ _ _ _ _ hi (mem_range.1 hs') hi hs he).2.2
    · intro h; exact absurd (mem_range.2 hs) h
  · rw [if_neg h]
    split
    · rename_i hi'
      refine sum_eq_zero fun s' hs' => ?_
      simp only [unitVec]
      rw [if_neg, zero_smul]
      intro he
      obtain ⟨h1, h2, -⟩ := hC.full.inj _ _ _ _ _ _ (by omega) (mem_range.1 hs') hi hs he
      exact h ⟨h1, by omega⟩
    · rfl

/-- C18 is violated for `well_posed=True`: feeding the first displacement basis function, the entry
of the matrix-free product misses the (positive) initial energy of that function. -/
theorem C18_violated_well_posed (hC : C.Ok) (hN : 1 ≤ C.D.N) (hwp : C.D.wellPosed = true)
    (hfw : C.D.jumpsFw = false) (hm : 0 < C.fe.mP) (hj : 0 < C.D.gJump) (hdt : 0 < C.D.dt)
    (hmass : 0 < C.S.mass (C.fe.bP 0) (C.fe.bP 0)) (hst : 0 ≤ C.S.stiff (C.fe.bP 0) (C.fe.bP 0))
    (w : World V) (hw : MfReady C w.obj) (vin vout : Ref) (hi : vin ∉ mfScratch)
    (ho : vout ∉ mfScratch) (hne : vin ≠ vout) (hx : w.heap vin = unitVec (C.full.dof 0 0 0)) :
    ∃ w', applySpacetimeMatrix C vin vout w = (.ok (), w') ∧
      w'.heap vout (C.full.dof 0 0 0) < (stMatOf C false).mult (w.heap vin) (C.full.dof 0 0 0)
        + mfPlaceholders C.S C.D (C.full.field C.fe (w.heap vin))
            (C.full.field C.fe (unitVec (C.full.dof 0 0 0))) := by
  have h0 : 0 < C.full.nsub 0 := by
    rw [hC.fullN]; simp [fullSizes]; omega
  obtain ⟨w', h1, h2⟩ := C18_exact_discrepancy_partial hC hN w hw vin vout hi ho hne
  refine ⟨w', h1, ?_⟩
  rw [← h2 _ (hC.full.lt 0 0 0 h0 hm), hx]
  have : mfMissing C.S C.D (C.full.field C.fe (unitVec (C.full.dof 0 0 0)))
      (C.full.field C.fe (unitVec (C.full.dof 0 0 0)))
      = C.D.gJump * (1 / C.D.dt * C.S.mass (C.fe.bP 0) (C.fe.bP 0)
          + C.D.dt * C.S.stiff (C.fe.bP 0) (C.fe.bP 0)) := by
    simp only [mfMissing, hwp, hfw, if_true, Bool.false_eq_true, if_false, ite_self, sum_const_zero,
      field_unit hC h0 hm]
    simp [Spec.jumpForm, FE.basis]
  rw [this]
  have : 0 < C.D.gJump * (1 / C.D.dt * C.S.mass (C.fe.bP 0) (C.fe.bP 0)
          + C.D.dt * C.S.stiff (C.fe.bP 0) (C.fe.bP 0)) := by positivity
  linarith

/-- C18 is violated for `jumps_in_fw_problem=True`: the interface dual terms are missing. -/
theorem C18_violated_fw_jumps (hC : C.Ok) (hN : 2 ≤ C.D.N) (hwp : C.D.wellPosed = false)
    (hfw : C.D.jumpsFw = true) (hm : 0 < C.fe.mD) (hj : 0 < C.D.gDual) (hdt : 0 < C.D.dt)
    (hmass : 0 < C.S.mass (C.fe.bD 0) (C.fe.bD 0))
    (w : World V) (hw : MfReady C w.obj) (vin vout : Ref) (hi : vin ∉ mfScratch)
    (ho : vout ∉ mfScratch) (hne : vin ≠ vout)
    (hx : w.heap vin = unitVec (C.full.dof 2 (C.D.qstar + 1) 0)) :
    ∃ w', applySpacetimeMatrix C vin vout w = (.ok (), w') ∧
      w'.heap vout (C.full.dof 2 (C.D.qstar + 1) 0)
        = (stMatOf C false).mult (w.heap vin) (C.full.dof 2 (C.D.qstar + 1) 0)
          + C.D.gDual * C.D.dt * C.S.mass (C.fe.bD 0) (C.fe.bD 0) ∧
      w'.heap vout (C.full.dof 2 (C.D.qstar + 1) 0)
        ≠ (stMatOf C false).mult (w.heap vin) (C.full.dof 2 (C.D.qstar + 1) 0) := by
  have h0 : C.D.qstar + 1 < C.full.nsub 2 := by
    rw [hC.fullN]; simp [fullSizes]; nlinarith
  obtain ⟨w', h1, h2⟩ := C18_exact_discrepancy_partial hC (by omega) w hw vin vout hi ho hne
  have h3 := h2 _ (hC.full.lt 2 _ 0 h0 hm)
  rw [hx] at h3
  have e1 : mfPlaceholders C.S C.D (C.full.field C.fe (unitVec (C.full.dof 2 (C.D.qstar + 1) 0)))
      (C.full.field C.fe (unitVec (C.full.dof 2 (C.D.qstar + 1) 0))) = 0 := by
    refine sum_eq_zero fun n _ => ?_
    simp [field_unit hC h0 hm]
  have e2 : mfMissing C.S C.D (C.full.field C.fe (unitVec (C.full.dof 2 (C.D.qstar + 1) 0)))
      (C.full.field C.fe (unitVec (C.full.dof 2 (C.D.qstar + 1) 0)))
      = -(C.D.gDual * C.D.dt * C.S.mass (C.fe.bD 0) (C.fe.bD 0)) := by
    simp only [mfMissing, hwp, hfw, if_true, Bool.false_eq_true, if_false, field_unit hC h0 hm]
    rw [sum_eq_single 1]
    · simp [FE.basis]
    · intro n _ hn
      have : ¬ ((n : ℤ) * (C.D.qstar + 1) = C.D.qstar + 1) := by
        intro e
        have h4 : (C.D.qstar + 1 : ℤ) ≠ 0 := by positivity
        have := mul_right_cancel₀ h4 (e.trans (one_mul _).symm)
        exact hn (by exact_mod_cast this)
      simp [this]
    · intro h; exact absurd (mem_range.2 (by omega)) h
  rw [e1, e2] at h3
  have h5 : 0 < C.D.gDual * C.D.dt * C.S.mass (C.fe.bD 0) (C.fe.bD 0) := by positivity
  rw [hx]
  refine ⟨w', h1, by linarith, fun e => by linarith⟩

/-! ## C19 -/

theorem mfPart_lin (C : Cfg V) (a b : ℝ) (x y : Vec) (n : ℕ) :
    mfPart C (a • x + b • y) n = a • mfPart C x n + b • mfPart C y n := by
  simp only [mfPart, pull_add, pull_smul, Mat.mult_add, Mat.mult_smul, push_add, push_smul]
  split
  · simp only [smul_add]; abel
  · simp

theorem mfOp_lin (C : Cfg V) (a b : ℝ) (x y : Vec) :
    mfOp C (a • x + b • y) = a • mfOp C x + b • mfOp C y := by
  simp only [mfOp, mfPart_lin, sum_add_distrib, smul_sum]

/-- C19: the result depends only on the content of the input vector: not on the previous content of
the output vector, nor on scratch vectors, nor on other state of the two objects. -/
theorem C19_depends_on_input_only (hC : C.Ok) (w₁ w₂ : World V) (h₁ : MfReady C w₁.obj)
    (h₂ : MfReady C w₂.obj) (vin vout : Ref) (hi : vin ∉ mfScratch) (ho : vout ∉ mfScratch)
    (heq : w₁.heap vin = w₂.heap vin) :
    ∃ w₁' w₂', applySpacetimeMatrix C vin vout w₁ = (.ok (), w₁') ∧
      applySpacetimeMatrix C vin vout w₂ = (.ok (), w₂') ∧ w₁'.heap vout = w₂'.heap vout := by
  obtain ⟨a, a1, -, -, -, -, a2⟩ := apply_run hC h₁ hi ho
  obtain ⟨b, b1, -, -, -, -, b2⟩ := apply_run hC h₂ hi ho
  exact ⟨a, b, a1, b1, by rw [a2, b2, heq]⟩

/-- C19: linearity. -/
theorem C19_linear (hC : C.Ok) (w₁ w₂ w₃ : World V) (h₁ : MfReady C w₁.obj) (h₂ : MfReady C w₂.obj)
    (h₃ : MfReady C w₃.obj) (vin vout : Ref) (hi : vin ∉ mfScratch) (ho : vout ∉ mfScratch)
    (a b : ℝ) (heq : w₃.heap vin = a • w₁.heap vin + b • w₂.heap vin) :
    ∃ w₁' w₂' w₃', applySpacetimeMatrix C vin vout w₁ = (.ok (), w₁') ∧
      applySpacetimeMatrix C vin vout w₂ = (.ok (), w₂') ∧
      applySpacetimeMatrix C vin vout w₃ = (.ok (), w₃') ∧
      w₃'.heap vout = a • w₁'.heap vout + b • w₂'.heap vout := by
  obtain ⟨p, p1, -, -, -, -, p2⟩ := apply_run hC h₁ hi ho
  obtain ⟨r, r1, -, -, -, -, r2⟩ := apply_run hC h₂ hi ho
  obtain ⟨s, s1, -, -, -, -, s2⟩ := apply_run hC h₃ hi ho
  refine ⟨p, r, s, p1, r1, s1, ?_⟩
  rw [p2, r2, s2, ← mfOp_lin]
  split
  · simp
  · rw [heq]

/-- C19: input, right-hand side and every other vector that is not the output or scratch is
unchanged, and so is every attribute of the object. -/
theorem C19_frame (hC : C.Ok) (w : World V) (hw : MfReady C w.obj) (vin vout : Ref)
    (hi : vin ∉ mfScratch) (ho : vout ∉ mfScratch) :
    ∃ w', applySpacetimeMatrix C vin vout w = (.ok (), w') ∧ w'.obj = w.obj ∧
      ∀ r, r ∉ mfScratch → r ≠ vout → w'.heap r = w.heap r := by
  obtain ⟨a, a1, a2, -, -, a3, -⟩ := apply_run hC hw hi ho
  exact ⟨a, a1, a2, a3⟩

/-- C19: passing the same vector as input and output yields zero. -/
theorem C19_alias_zero (hC : C.Ok) (w : World V) (hw : MfReady C w.obj) (v : Ref)
    (hv : v ∉ mfScratch) :
    ∃ w', applySpacetimeMatrix C v v w = (.ok (), w') ∧ w'.heap v = 0 := by
  obtain ⟨a, a1, -, -, -, -, a2⟩ := apply_run hC hw hv hv
  exact ⟨a, a1, by rw [a2, if_pos rfl, mfOp_zero]⟩

/-! ## Non-vacuity -/

namespace Example
open Polynomial

/-- An object after set-up, with arbitrary vectors. -/
noncomputable def readyObj (C : Cfg V) : Obj V where
  dofmaps := some (mkDofmaps C)
  slabVecs := some ()
  slabMatNJ := some (slabMatOf C false)
  coupVecs := some ()
  coupMat := some (coupMatOf C)

noncomputable def readyWorld (C : Cfg V) (heap : Ref → Vec) : World V where
  obj := readyObj C
  heap := heap
  sched _ := false
  clock := 0

theorem readyObj_ready (C : Cfg V) : MfReady C (readyObj C) :=
  ⟨rfl, rfl, rfl, fun _ => rfl, fun _ => rfl⟩

theorem user_notMem (k : ℕ) : (Ref.user k) ∉ mfScratch := by simp [mfScratch]

example (heap : Ref → Vec) := C17_matrix_free_product (cfg_ok false false) (by decide) rfl rfl
  (readyWorld _ heap) (readyObj_ready _) (.user 0) (.user 1) (user_notMem 0) (user_notMem 1) (by decide)

theorem one_sub_X_ne : (1 - X : ℝ[X]) ≠ 0 := by
  intro h
  have := congrArg (eval 0) h
  simp at this

/-- Both violations of C18 occur. -/
example (heap : Ref → Vec) (h : heap (.user 0) = unitVec ((cfg false true).full.dof 0 0 0)) :=
  C18_violated_well_posed (cfg_ok false true) (by decide) rfl rfl (by decide)
    (by norm_num [cfg, disc]) (by norm_num [cfg, disc])
    (polySpace_mass_pos one_sub_X_ne) (polySpace_psd.stiff _)
    (readyWorld _ heap) (readyObj_ready _) (.user 0) (.user 1) (user_notMem 0) (user_notMem 1) (by decide) h

example (heap : Ref → Vec) (h : heap (.user 0) = unitVec ((cfg true false).full.dof 2 2 0)) :=
  C18_violated_fw_jumps (cfg_ok true false) (by decide) rfl rfl (by decide)
    (by norm_num [cfg, disc]) (by norm_num [cfg, disc])
    (polySpace_mass_pos (by simp [cfg, fe]))
    (readyWorld _ heap) (readyObj_ready _) (.user 0) (.user 1) (user_notMem 0) (user_notMem 1) (by decide) h

end Example

/-- C18 does not hold of the code. -/
theorem C18_violated : ¬ C18_statement (Polynomial ℝ) := by
  intro h
  have hC := Example.cfg_ok false true
  obtain ⟨w', h1, h2⟩ := C18_violated_well_posed hC (by decide) rfl rfl (by decide)
    (by norm_num [Example.cfg, Example.disc]) (by norm_num [Example.cfg, Example.disc])
    (Example.polySpace_mass_pos Example.one_sub_X_ne) (Example.polySpace_psd.stiff _)
    (Example.readyWorld _ fun _ => unitVec ((Example.cfg false true).full.dof 0 0 0))
    (Example.readyObj_ready _) (.user 0) (.user 1) (Example.user_notMem 0) (Example.user_notMem 1)
    (by decide) rfl
  obtain ⟨w'', h3, h4⟩ := h _ hC (by decide)
    (Example.readyWorld _ fun _ => unitVec ((Example.cfg false true).full.dof 0 0 0))
    (Example.readyObj_ready _) (.user 0) (.user 1) (Example.user_notMem 0) (Example.user_notMem 1)
    (by decide)
  obtain rfl : w' = w'' := (Prod.mk.inj (h1.symm.trans h3)).2
  exact h2.ne (h4 _ (hC.full.lt 0 0 0 (by decide) (by decide)))

end Dxss
