import Verif.Props.PublicApi
import Verif.Props.Inexact

/-!
# Properties C31–C33 stated with the variational form

The theorems of `Object` and `Requests` compare with the operators of the model.  Here the same is said about the forms
of the method, as in `PublicApi`.
-/

namespace Dxss
open Finset
set_option linter.unusedSectionVars false
variable {V : Type} [AddCommGroup V] [Module ℝ V] {C : Cfg V}

/-! ## C31: the products with one slab and over one interface -/

/-- The interface terms between two slabs, for functions with the two time indices 0 (end of the lower slab) and 1
(start of the upper slab). -/
noncomputable def Spec.interfaceTerms (S : Space V) (D : Disc V) (U W : Field V) : ℝ :=
  D.gJump * Spec.jumpForm S D.dt (U 0 1 - U 0 0) (U 1 1 - U 1 0) (W 0 1 - W 0 0) (W 1 1 - W 1 0)

theorem couplingForm_eq (S : Space V) (D : Disc V) (ind : V) (U W : Field V) :
    evalForm S ind D.couplingForm U W = Spec.interfaceTerms S D U W + 1e-20 * S.mass (U 0 0) (W 0 0) := by
  simp only [Disc.couplingForm, evalForm, List.map_cons, List.map_nil, List.sum_cons, List.sum_nil, Term.eval, diff_, at_,
    Operand.eval, SOp.eval, Spec.interfaceTerms, Spec.jumpForm]
  simp
  ring

theorem matMult_ok {A : World V → Option Mat} {x y : Ref} {w w' : World V} (h : matMult A x y w = (.ok (), w')) :
    ∃ B, A w = some B ∧ w'.heap y = B.mult (w.heap x) := by
  unfold matMult at h
  rw [M.bind_run] at h
  rcases e : A w with _ | B
  · simp [M.attr, e] at h
  · simp only [M.attr, e] at h
    cases h
    exact ⟨B, rfl, by simp⟩

/-- C31: whatever was called before, if `slab_matrix_no_dg_jumps_multiply(x, y)` returns, `y` is the product of `x` with
the matrix of the variational form of a single slab without initial values (plus the placeholder). -/
theorem C31_slab_product (hC : C.Ok) {w₀ : World V} (h₀ : w₀.Fresh) (ops : List (Op V)) (x : InVec) (y : ℕ)
    {w' : World V} (h : runOp C (.slabMult x y) (runOps C ops w₀) = (.ok (), w')) (v : Vec) :
    let X := C.slab.field C.fe ((runOps C ops w₀).heap x.ref)
    let Y := C.slab.field C.fe v
    ∑ d ∈ range C.slab.size, w'.heap (.user y) d * v d
      = Spec.form C.S (C.D.slabProblem false) C.D.ind false X Y + placeholder C.S X Y := by
  intro X Y
  obtain ⟨B, hB, e⟩ := matMult_ok h
  rw [e, (inv_reach (C := C) h₀ ops).slabMatNJ B hB, slabMatOf, assemble_pair _ _ _ _ _ hC.slab, slabForm_eq _ _ hC.disc]
  simp [X, Y]

/-- C31: likewise `coupling_matrix_between_slices_multiply(x, y)` and the interface terms. -/
theorem C31_coupling_product (hC : C.Ok) {w₀ : World V} (h₀ : w₀.Fresh) (ops : List (Op V)) (x : InVec) (y : ℕ)
    {w' : World V} (h : runOp C (.coupMult x y) (runOps C ops w₀) = (.ok (), w')) (v : Vec) :
    let X := C.coup.field C.fe ((runOps C ops w₀).heap x.ref)
    let Y := C.coup.field C.fe v
    ∑ d ∈ range C.coup.size, w'.heap (.user y) d * v d
      = Spec.interfaceTerms C.S C.D X Y + 1e-20 * C.S.mass (X 0 0) (Y 0 0) := by
  intro X Y
  obtain ⟨B, hB, e⟩ := matMult_ok h
  rw [e, (inv_reach (C := C) h₀ ops).coupMat B hB, coupMatOf, assemble_pair _ _ _ _ _ hC.coup, couplingForm_eq]

theorem mfPlaceholders_add_right (S : Space V) (D : Disc V) (U W W' : Field V) :
    mfPlaceholders S D U (W + W') = mfPlaceholders S D U W + mfPlaceholders S D U W' := by
  rw [mfPlaceholders, mfPlaceholders, mfPlaceholders, ← sum_add_distrib]
  refine sum_congr rfl fun n _ => ?_
  split
  · simp
  · simp only [Pi.add_apply, map_add]; ring

theorem mfPlaceholders_smul_right (S : Space V) (D : Disc V) (U W : Field V) (t : ℝ) :
    mfPlaceholders S D U (t • W) = t * mfPlaceholders S D U W := by
  rw [mfPlaceholders, mfPlaceholders, mul_sum]
  refine sum_congr rfl fun n _ => ?_
  split
  · simp
  · simp only [Pi.smul_apply, map_smul, smul_eq_mul]; ring

theorem mfPlaceholders_sum_right (S : Space V) (D : Disc V) (U : Field V) (v : ℕ → ℝ) (W : ℕ → Field V) (s : Finset ℕ) :
    mfPlaceholders S D U (∑ d ∈ s, v d • W d) = ∑ d ∈ s, v d * mfPlaceholders S D U (W d) := by
  induction s using Finset.induction_on with
  | empty => simpa using mfPlaceholders_smul_right S D U 0 0
  | insert a s ha ih => rw [sum_insert ha, sum_insert ha, mfPlaceholders_add_right, mfPlaceholders_smul_right, ih]

/-- Without the two flags the matrix-free product is the product with the assembled matrix and the placeholders. -/
theorem mfOp_pair (hC : C.Ok) (hN : 1 ≤ C.D.N) (hwp : C.D.wellPosed = false) (hfw : C.D.jumpsFw = false) (x v : Vec) :
    ∑ d ∈ range C.full.size, mfOp C x d * v d
      = Spec.form C.S C.D C.D.ind false (C.full.field C.fe x) (C.full.field C.fe v)
        + placeholder C.S (C.full.field C.fe x) (C.full.field C.fe v)
        + mfPlaceholders C.S C.D (C.full.field C.fe x) (C.full.field C.fe v) := by
  have each : ∀ d ∈ range C.full.size, mfOp C x d * v d
      = (stMatOf C false).mult x d * v d
        + v d * mfPlaceholders C.S C.D (C.full.field C.fe x) (C.full.field C.fe (unitVec d)) := fun d hd => by
    have := mfOp_eq hC hN x (mem_range.1 hd)
    have z : ∀ U W, mfMissing C.S C.D U W = 0 := fun U W => by simp [mfMissing, hwp, hfw]
    simp only [z, add_zero] at this
    rw [this]
    ring
  rw [sum_congr rfl each, sum_add_distrib, ← mfPlaceholders_sum_right, ← field_eq_sum C.full C.fe hC.full, stMatOf,
    assemble_pair _ _ _ _ _ hC.full, C12_form_is_variational _ _ hC.disc]

/-- The same object with the two flags off. -/
def Cfg.plain (C : Cfg V) : Cfg V := { C with D := { C.D with wellPosed := false, jumpsFw := false } }

theorem plain_ok (hC : C.Ok) : C.plain.Ok :=
  ⟨⟨hC.disc.elmat, hC.disc.dt_ne⟩, hC.full, hC.fullN, hC.slab, hC.slabN, hC.coup, hC.coupN, hC.bnd, hC.bndN⟩

theorem slabForm_plain (D : Disc V) :
    ({ D with wellPosed := false, jumpsFw := false } : Disc V).slabForm false = D.slabForm false := by
  simp only [Disc.slabForm, Disc.slabDualJump, Disc.slabJump, Bool.and_false, Bool.false_and]
  rfl

theorem mfOp_plain (x : Vec) : mfOp C.plain x = mfOp C x := by
  have h1 : slabMatOf C.plain false = slabMatOf C false := by
    rw [slabMatOf, slabMatOf, ← slabForm_plain C.D]; rfl
  have h2 : coupMatOf C.plain = coupMatOf C := rfl
  unfold mfOp
  refine sum_congr rfl fun n _ => ?_
  rw [mfPart, mfPart, h1, h2]
  rfl

/-- C31: the matrix-free product, whenever it returns, tested with any vector: the variational form on every slab and the
interface terms between neighbouring slabs (plus the placeholders), without the initial terms and the forward jumps. -/
theorem C31_product_form (hC : C.Ok) (hN : 1 ≤ C.D.N) {w₀ : World V} (h₀ : w₀.Fresh) (ops : List (Op V)) (x : InVec)
    (y : ℕ) (hxy : x.ref ≠ .user y) {w' : World V} (h : runOp C (.apply x y) (runOps C ops w₀) = (.ok (), w')) (v : Vec) :
    let D' : Disc V := { C.D with wellPosed := false, jumpsFw := false }
    let X := C.full.field C.fe ((runOps C ops w₀).heap x.ref)
    let Y := C.full.field C.fe v
    ∑ d ∈ range C.full.size, w'.heap (.user y) d * v d
      = Spec.form C.S D' C.D.ind false X Y + placeholder C.S X Y + mfPlaceholders C.S C.D X Y := by
  intro D' X Y
  have hr := ready_of_apply hN (inv_reach h₀ ops) h
  have hx : x.ref ∉ mfScratch := by cases x <;> simp [InVec.ref, mfScratch]
  obtain ⟨w'', e, -, -, -, -, g⟩ := apply_run hC hr hx (show Ref.user y ∉ mfScratch by simp [mfScratch])
  obtain rfl : w' = w'' := congrArg Prod.snd (h.symm.trans e)
  rw [g, if_neg hxy, ← mfOp_plain]
  exact mfOp_pair (plain_ok hC) hN rfl rfl _ v

/-! ## C32 -/

/-- The full statement of C32 with the variational form.  It is false, see `C32_api_violated`. -/
def C32_api_statement (V : Type) [AddCommGroup V] [Module ℝ V] : Prop :=
  ∀ (C : Cfg V), C.Ok → ∀ (w₀ : World V), w₀.Fresh → ∀ (ops : List (Op V)) (p : Bool) (A : Mat) (w₁ : World V),
    getSpacetimeMatrix C p (runOps C ops w₀) = (.ok A, w₁) →
    A.Represents C.fe C.full fun U W => Spec.form C.S C.D C.D.ind p U W + placeholder C.S U W

theorem Mat.Represents.entry {A : Mat} {fe : FE V} {L : FSpace} {a : Field V → Field V → ℝ} (h : A.Represents fe L a)
    {d e : ℕ} (hd : d < L.size) (he : e < L.size) : A.a d e = a (L.field fe (unitVec e)) (L.field fe (unitVec d)) := by
  rw [← h.2]
  have hd' : d < A.size := by rw [h.1]; exact hd
  have he' : e < A.size := by rw [h.1]; exact he
  simp [Mat.mult, unitVec, hd', he']

/-- C32 fails in every configuration with two slabs: after a successful request with one value of `precond` the matrix
returned for the other value is not the matrix of its form. -/
theorem C32_api_always_fails (hC : C.Ok) (hN : 2 ≤ C.D.N) {s : ℕ} (hs : s < C.fe.mP)
    (hpos : C.D.gJump * (1 / C.D.dt * C.S.mass (C.fe.bP s) (C.fe.bP s)
      + C.D.dt * C.S.stiff (C.fe.bP s) (C.fe.bP s)) ≠ 0)
    {w₀ : World V} (h₀ : w₀.Fresh) (before after : List (Op V)) (p : Bool) (A : Mat) (w₁ : World V)
    (hbefore : ∀ op ∈ before, ¬ op.OtherFlag p)
    (h : getSpacetimeMatrix C p (runOps C before w₀) = (.ok A, w₁)) :
    ∃ A', getSpacetimeMatrix C (!p) (runOps C after w₁) = (.ok A', runOps C after w₁) ∧
      ¬ A'.Represents C.fe C.full fun U W => Spec.form C.S C.D C.D.ind (!p) U W + placeholder C.S U W := by
  obtain ⟨A', h1, h2⟩ := C32_always_fails hC hN hs hpos h₀ before after p A w₁ hbefore h
  refine ⟨A', h1, fun hr => ?_⟩
  obtain rfl : A' = A := by
    have := C30_matrix_stable h₀ before after p (!p) h
    rw [h1] at this
    exact Except.ok.inj (congrArg Prod.fst this)
  have hA := (C32_same_flag_partial h₀ p before hbefore).1 A' w₁ h
  have ho : (stMatOf C (!p)).Represents C.fe C.full fun U W => Spec.form C.S C.D C.D.ind (!p) U W + placeholder C.S U W :=
    ⟨rfl, fun x y => by
      change ∑ d ∈ range C.full.size, _ = _
      rw [stMatOf, assemble_pair _ _ _ _ _ hC.full, C12_form_is_variational _ _ hC.disc]⟩
  apply h2
  rw [hA] at hr ⊢
  rw [stMatOf, stMatOf, assemble, assemble, Mat.mk.injEq]
  refine ⟨rfl, funext fun d => funext fun e => ?_⟩
  by_cases hd : d < C.full.size
  · by_cases he : e < C.full.size
    · exact (hr.entry hd he).trans (ho.entry hd he).symm
    · have z : C.full.field C.fe (unitVec e) = 0 := by
        rw [← field_congr C.full C.fe hC.full (x := 0) (y := unitVec e) fun d hd => by
          simp only [unitVec, Pi.zero_apply]; rw [if_neg (by omega)]]
        funext c i; simp [FSpace.field]
      simp only [hd, if_true, z, evalForm_zero_left]
  · simp only [hd, if_false]

/-! ## C33 -/

/-- The full statement of C33 with the data functional: for an object built by the constructor, the right-hand side is
the functional of the measured data and of the initial data set by the caller.  It is false, see `C33_api_violated`. -/
def C33_api_statement (V : Type) [AddCommGroup V] [Module ℝ V] : Prop :=
  ∀ (interp : V →ₗ[ℝ] V) (a : Args V) (om om' : DataDomain V) (B : Built V) (C : Cfg V) (w₀ : World V),
    construct interp a om = (.ok B, om') → C.Ok → C.OfBuilt B → w₀.Fresh → w₀.NoFail → ∀ (u v : V) (ops : List (Op V)),
    (∀ op ∈ ops, ¬ op.ChoosesInitial) → ∀ (r : Ref) (w₁ : World V),
    getSpacetimeRhs C (runOps C (.setupFE :: .setInitial u v :: ops) w₀) = (.ok r, w₁) →
    ∀ Q : ℕ → (ℝ → ℝ) → ℝ, (∀ n < C.D.N, RuleOnSlab B.qr C.D.dt n (Q n)) → ∀ y : Vec,
    ∑ d ∈ range C.full.size, w₁.heap r d * y d
      = Spec.load C.S C.D C.D.ind u v Q (C.full.field C.fe y)
        + 1e-20 * C.S.mass C.S.one (C.full.field C.fe y 2 0)

theorem val_end' (hC : C.Ok) (hN : 1 ≤ C.D.N) (v : Vec) {c : Fin 4} (hc : c = 0 ∨ c = 1) :
    Spec.val C.D.q C.D.dt (C.D.N - 1) (C.full.field C.fe v c) (C.D.N * C.D.dt)
      = nodeAt C.fe v (C.full.collapse c ((C.D.q + 1) * C.D.N - 1)) := by
  have hdt := hC.disc.dt_ne
  have e : ((C.D.N - 1 : ℕ) : ℝ) = C.D.N - 1 := by rw [Nat.cast_sub hN]; simp
  have hτ : ((C.D.N : ℝ) * C.D.dt - ((C.D.N - 1 : ℕ) : ℝ) * C.D.dt) / C.D.dt = 1 := by
    rw [e]; field_simp; ring
  rw [← field_top hC hN v hc, Spec.val, hτ, sum_eq_single C.D.q]
  · rw [phi_at_one (q_le hC.disc) le_rfl, if_pos rfl, one_smul]
  · intro j hj hne
    rw [phi_at_one (q_le hC.disc) (Nat.lt_succ_iff.1 (mem_range.1 hj)), if_neg hne, zero_smul]
  · intro h; exact absurd (mem_range.2 (Nat.lt_succ_self _)) h

section
variable {interp : V →ₗ[ℝ] V} {a : Args V} {om om' : DataDomain V} {B : Built V} {w₀ w₁ : World V} {r : Ref}
  {Q : ℕ → (ℝ → ℝ) → ℝ}

/-- C33, what does hold (1): with `well_posed=False`, whatever was called (or failed) before. -/
theorem C33_api_not_well_posed_partial (hb : construct interp a om = (.ok B, om')) (hC : C.Ok) (hB : C.OfBuilt B)
    (hwp : C.D.wellPosed = false) (h₀ : w₀.Fresh) (ops : List (Op V))
    (h : getSpacetimeRhs C (runOps C ops w₀) = (.ok r, w₁))
    (hQ : ∀ n < C.D.N, RuleOnSlab B.qr C.D.dt n (Q n)) (u v : V) (y : Vec) :
    ∑ d ∈ range C.full.size, w₁.heap r d * y d
      = Spec.load C.S C.D C.D.ind u v Q (C.full.field C.fe y)
        + 1e-20 * C.S.mass C.S.one (C.full.field C.fe y 2 0) := by
  obtain ⟨hr, hok⟩ := construct_qr hb
  rw [C33_not_well_posed_partial hwp h₀ ops u v h, rhsVecOf, assembleVec_pair _ _ _ _ hC.full,
    C63_rhs_form C.S C.D hC.disc C.D.ind u v hr hB.pts hB.ws hQ]

/-- C33 fails with `well_posed=True`: when errors are measured (or a solution is written to a file) before the
right-hand side is first requested, it is the functional with the values at the final time of the function passed in
place of the initial data. -/
theorem C33_api_wrong_data (hb : construct interp a om = (.ok B, om')) (hC : C.Ok) (hB : C.OfBuilt B) (hN : 1 ≤ C.D.N)
    (h₀ : w₀.Fresh) (hf : w₀.NoFail) (u v : V) (x : InVec) (op : Op V) (hop : op = .errors x ∨ op = .paraView x)
    (h : getSpacetimeRhs C (runOps C [.setupFE, .setInitial u v, op] w₀) = (.ok r, w₁))
    (hQ : ∀ n < C.D.N, RuleOnSlab B.qr C.D.dt n (Q n)) (y : Vec) :
    let X := C.full.field C.fe ((runOps C [.setupFE, .setInitial u v] w₀).heap x.ref)
    let T := C.D.N * C.D.dt
    ∑ d ∈ range C.full.size, w₁.heap r d * y d
      = Spec.load C.S C.D C.D.ind (Spec.val C.D.q C.D.dt (C.D.N - 1) (X 0) T) (Spec.val C.D.q C.D.dt (C.D.N - 1) (X 1) T) Q
          (C.full.field C.fe y)
        + 1e-20 * C.S.mass C.S.one (C.full.field C.fe y 2 0) := by
  intro X T
  obtain ⟨hr, hok⟩ := construct_qr hb
  rw [C33_wrong_data hN h₀ hf u v x op hop h, rhsVecOf, assembleVec_pair _ _ _ _ hC.full,
    C63_rhs_form C.S C.D hC.disc C.D.ind _ _ hr hB.pts hB.ws hQ]
  have hend : ∀ c : Fin 4, c = 0 ∨ c = 1 → Spec.val C.D.q C.D.dt (C.D.N - 1) (X c) T
      = nodeAt C.fe ((runOps C [.setupFE, .setInitial u v] w₀).heap x.ref) (C.full.collapse c ((C.D.q + 1) * C.D.N - 1)) :=
    fun c hc => val_end' hC hN _ hc
  rw [hend 0 (.inl rfl), hend 1 (.inr rfl)]
end

/-! ## The hypotheses can be met; C32 and C33 are false -/

namespace Example
open Polynomial

theorem matMult_run {A : World V → Option Mat} {B : Mat} {w : World V} (h : A w = some B) (x y : Ref) :
    ∃ w', matMult A x y w = (.ok (), w') := by
  refine ⟨_, Prod.ext ?_ rfl⟩
  simp [matMult, M.bind_run, M.attr, h, setVec, M.modify]

theorem slabMult_ok (heap : Ref → Vec) (ops : List (Op ℝ[X])) (x : InVec) (y : ℕ) :
    ∃ w', runOp (cfg true false) (.slabMult x y) (runOps (cfg true false) (.setupFE :: .prepare :: ops) (freshWorld heap))
      = (.ok (), w') :=
  matMult_run (documented_mfReady rfl (freshWorld_fresh heap) (freshWorld_noFail heap) ops).slabMat _ _

theorem coupMult_ok (heap : Ref → Vec) (ops : List (Op ℝ[X])) (x : InVec) (y : ℕ) :
    ∃ w', runOp (cfg true false) (.coupMult x y) (runOps (cfg true false) (.setupFE :: .prepare :: ops) (freshWorld heap))
      = (.ok (), w') :=
  matMult_run ((documented_mfReady rfl (freshWorld_fresh heap) (freshWorld_noFail heap) ops).coupMat (by decide)) _ _

example (heap : Ref → Vec) (v : Vec) :=
  C31_slab_product (cfg_ok true false) (freshWorld_fresh heap) _ .rhs 1 (slabMult_ok heap someOps .rhs 1).choose_spec v
example (heap : Ref → Vec) (v : Vec) :=
  C31_coupling_product (cfg_ok true false) (freshWorld_fresh heap) _ .rhs 1 (coupMult_ok heap someOps .rhs 1).choose_spec v

/-- With `well_posed=True` the product returns after an explicit set-up, and is the form without the initial terms. -/
example (heap : Ref → Vec) (v : Vec) : ∃ ops w',
    runOp (cfg true true) (.apply (.user 0) 1) (runOps (cfg true true) ops (freshWorld heap)) = (.ok (), w') ∧
    ∑ d ∈ range (cfg true true).full.size, w'.heap (.user 1) d * v d
      = Spec.form polySpace { disc true true with wellPosed := false, jumpsFw := false } (disc true true).ind false
          ((cfg true true).full.field fe ((runOps (cfg true true) ops (freshWorld heap)).heap (.user 0)))
          ((cfg true true).full.field fe v)
        + placeholder polySpace
          ((cfg true true).full.field fe ((runOps (cfg true true) ops (freshWorld heap)).heap (.user 0)))
          ((cfg true true).full.field fe v)
        + mfPlaceholders polySpace (disc true true)
          ((cfg true true).full.field fe ((runOps (cfg true true) ops (freshWorld heap)).heap (.user 0)))
          ((cfg true true).full.field fe v) := by
  have h1 := C29_explicit_setup_partial (cfg_ok true true) (freshWorld_fresh heap) (freshWorld_noFail heap)
    [.write 0 (unitVec 2)] (.user 0) 1
  generalize (.setupFE :: .prepare :: .setupSlab false :: [.write 0 (unitVec 2)] : List (Op ℝ[X])) = ops at h1
  exact ⟨ops, _, Prod.ext h1 rfl, C31_product_form (cfg_ok true true) (by decide) (freshWorld_fresh heap) ops (.user 0) 1
    (by simp [InVec.ref]) (Prod.ext h1 rfl) v⟩

example (fw wp : Bool) (heap : Ref → Vec) (after : List (Op ℝ[X])) :=
  C32_api_always_fails (cfg_ok fw wp) (le_refl 2) (s := 0) (Nat.zero_lt_two) (energy_ne fw wp) (freshWorld_fresh heap)
    [.setupFE] after true _ _ (by simp [Op.OtherFlag]) (getMatrix_ok (cfg fw wp) true heap).choose_spec

/-- C32 is false: the matrix for the preconditioner and then the matrix of the system are requested. -/
theorem C32_api_violated : ¬ C32_api_statement ℝ[X] := by
  intro hst
  obtain ⟨w₁, h⟩ := getMatrix_ok (cfg false false) true fun _ => 0
  obtain ⟨A', h1, h2⟩ := C32_api_always_fails (cfg_ok false false) (by decide) (s := 0) (by decide) (energy_ne false false)
    (freshWorld_fresh _) [.setupFE] [] true _ w₁ (by simp [Op.OtherFlag]) h
  refine h2 (hst (cfg false false) (cfg_ok _ _) (freshWorld fun _ => 0) (freshWorld_fresh _)
    [.setupFE, .getMatrix true] false A' w₁ ?_)
  have e : runOps (cfg false false) [.setupFE, .getMatrix true] (freshWorld fun _ => 0) = w₁ := by
    change ((getSpacetimeMatrix (cfg false false) true).void (runOps (cfg false false) [.setupFE] (freshWorld fun _ => 0))).2 = _
    rw [void_snd, h]
  rw [e]; exact h1

/-- The data with `well_posed=False` (as in `built3f`): whatever was called before. -/
example (heap : Ref → Vec) (ops : List (Op V3)) (u v u' v' : V3) (Q : ℕ → (ℝ → ℝ) → ℝ) : ∃ B w₁,
    getSpacetimeRhs (cfg3 B) (runOps (cfg3 B) (.setupFE :: .setInitial u v :: ops) (freshWorld heap)) = (.ok .rhs, w₁) ∧
    ((∀ n < 2, RuleOnSlab B.qr (1 / 2) n (Q n)) → ∀ y,
      ∑ d ∈ range (cfg3 B).full.size, w₁.heap .rhs d * y d
        = Spec.load modeSpace B.D (1, 0, 0) u' v' Q ((cfg3 B).full.field fe3 y)
          + 1e-20 * modeSpace.mass modeSpace.one ((cfg3 B).full.field fe3 y 2 0)) := by
  obtain ⟨B, hb, hC, hO, hP, hi, hwp, -, hN, hdt, -⟩ := built3f
  obtain ⟨w₁, h⟩ := getRhs_after (cfg3 B) heap u v ops
  refine ⟨B, w₁, h, fun hQ y => ?_⟩
  have := C33_api_not_well_posed_partial hb hC hO hwp (freshWorld_fresh heap) _ h (Q := Q)
    (by simpa only [cfg3, hN, hdt] using hQ) u' v' y
  rw [show (cfg3 B).D.ind = (1, 0, 0) from hi] at this
  exact this

/-- C33 is false: the caller sets an initial velocity, measures the errors of the zero vector and asks for the
right-hand side. -/
theorem C33_api_violated : ¬ C33_api_statement V3 := by
  intro hst
  obtain ⟨B, hb, hC, hO, hP, hi, hwp, hs, hN, hdt⟩ := built3
  obtain ⟨w₁, h⟩ := getRhs_after (cfg3 B) (fun _ => 0) 0 (1, -1, 0) [.errors (.user 0)]
  choose Q hQ using exists_ruleOnSlab (construct_qr hb).1 (1 / 2)
  have hQ' : ∀ n < (cfg3 B).D.N, RuleOnSlab B.qr (cfg3 B).D.dt n (Q n) := fun n _ => by
    rw [show (cfg3 B).D.dt = 1 / 2 from hdt]; exact hQ n
  have hn : (cfg3 B).full.nsub 1 = 4 := rfl
  have h1 := hst _ _ _ _ B (cfg3 B) _ hb hC hO (freshWorld_fresh fun _ => 0) (freshWorld_noFail _) 0 (1, -1, 0)
    [.errors (.user 0)] (by simp [Op.ChoosesInitial]) _ _ h Q hQ' (unitVec ((cfg3 B).full.dof 1 0 0))
  have h2 := C33_api_wrong_data hb hC hO (by change 1 ≤ B.D.N; rw [hN]; norm_num) (freshWorld_fresh fun _ => 0)
    (freshWorld_noFail _) 0 (1, -1, 0) (.user 0) _ (.inl rfl) h hQ' (unitVec ((cfg3 B).full.dof 1 0 0))
  have hz : (runOps (cfg3 B) [.setupFE, .setInitial 0 (1, -1, 0)] (freshWorld fun _ => 0)).heap (.user 0) = 0 := by
    simp [runOps, runOp, setupFE, setInitial, freshWorld, M.bind_run, ext, modObj, setVec, M.modify, M.attr]
  have hf : ∀ c i, (cfg3 B).full.field (cfg3 B).fe 0 c i = 0 := fun c i => by simp [FSpace.field]
  have hv : ∀ c t, Spec.val (cfg3 B).D.q (cfg3 B).D.dt ((cfg3 B).D.N - 1) ((cfg3 B).full.field (cfg3 B).fe 0 c) t = 0 :=
    fun c t => by simp [Spec.val, hf]
  rw [h1] at h2
  simp only [InVec.ref, hz, hv] at h2
  have hwp' : (cfg3 B).D.wellPosed = true := hwp
  have hy := field_unit hC (c := 1) (i := 0) (s := 0) (by rw [hn]; norm_num) (by change 0 < 2; norm_num) 1 0
  simp only [Nat.cast_zero, and_self, if_true] at hy
  have hpos : 0 < (cfg3 B).D.N := by change 0 < B.D.N; rw [hN]; norm_num
  have v0 : Spec.val (cfg3 B).D.q (cfg3 B).D.dt 0
      ((cfg3 B).full.field (cfg3 B).fe (unitVec ((cfg3 B).full.dof 1 0 0)) 1) 0 = (cfg3 B).fe.basis 1 0 := by
    rw [← hy]
    simpa using val_bottom hC.disc.hq (cfg3 B).D.dt 0
      ((cfg3 B).full.field (cfg3 B).fe (unitVec ((cfg3 B).full.dof 1 0 0)) 1)
  simp only [Spec.load, hwp', hpos, and_self, if_true, v0] at h2
  have hb : (cfg3 B).fe.basis 1 0 = (1, -1, 0) := rfl
  have hj : (cfg3 B).D.gJump ≠ 0 := hP.jump.ne'
  have hm : modeSpace.mass (1, -1, 0) (1, -1, 0) ≠ 0 := fun h => by
    have := modeSpace_definite.mass _ h; simp at this
  rw [hb] at h2
  simp only [Spec.jumpForm, map_zero, LinearMap.zero_apply] at h2
  rw [show (cfg3 B).S = modeSpace from rfl, show (cfg3 B).D.dt = 1 / 2 from hdt] at h2
  apply hm
  have : (cfg3 B).D.gJump * modeSpace.mass (1, -1, 0) (1, -1, 0) = 0 := by linarith
  exact (mul_eq_zero.1 this).resolve_left hj

end Example
end Dxss
