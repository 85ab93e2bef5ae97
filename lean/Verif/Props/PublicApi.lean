import Verif.Props.PrecondApi
import Verif.Props.Errors
import Verif.Props.Indices
import Verif.Props.ParaView
import Verif.Props.Plot
import Verif.Props.CallerVectors

/-!
# Properties C11–C26, C31 and C42 through public calls

The theorems of the files on forms, the matrix-free product and the preconditioner are about single functions and
states with the necessary attributes.  Here they are stated for objects on which the documented calls and any others
have been made, and for the matrices, forms and reports these calls return.
-/

namespace Dxss
open Finset Polynomial
set_option linter.unusedSectionVars false
variable {V : Type} [AddCommGroup V] [Module ℝ V] {C : Cfg V}

/-! ### The matrices and forms that are returned -/

/-- `A` is the matrix of the bilinear form `a` on the discrete space `L`: for all coefficient vectors the pairing is
the value of the form. -/
def Mat.Represents (A : Mat) (fe : FE V) (L : FSpace) (a : Field V → Field V → ℝ) : Prop :=
  A.size = L.size ∧ ∀ x y : Vec, ∑ d ∈ range A.size, A.mult x d * y d = a (L.field fe x) (L.field fe y)

/-- C12: the matrix returned by `get_spacetime_matrix(precond)` on any object on which only that value of `precond` was
requested is the matrix of the space-time variational form plus the placeholder. -/
theorem C12_matrix (hC : C.Ok) {w₀ : World V} (h₀ : w₀.Fresh) (p : Bool) (ops : List (Op V))
    (hops : ∀ op ∈ ops, ¬ op.OtherFlag p) {A : Mat} {w₁ : World V}
    (h : getSpacetimeMatrix C p (runOps C ops w₀) = (.ok A, w₁)) :
    A.Represents C.fe C.full fun U W => Spec.form C.S C.D C.D.ind p U W + placeholder C.S U W := by
  obtain rfl := (C32_same_flag_partial h₀ p ops hops).1 A w₁ h
  refine ⟨rfl, fun x y => ?_⟩
  change ∑ d ∈ range C.full.size, _ = _
  rw [stMatOf, assemble_pair _ _ _ _ _ hC.full, C12_form_is_variational _ _ hC.disc]

/-- C12: the same for the form returned by `get_spacetime_bfi(precond)`. -/
theorem C12_bfi (hC : C.Ok) {w₀ : World V} (h₀ : w₀.Fresh) (p : Bool) (ops : List (Op V))
    (hops : ∀ op ∈ ops, ¬ op.OtherFlag p) {F : List Term} {w₁ : World V}
    (h : getSpacetimeBfi C p (runOps C ops w₀) = (.ok F, w₁)) (U W : Field V) :
    evalForm C.S C.D.ind F U W = Spec.form C.S C.D C.D.ind p U W + placeholder C.S U W := by
  obtain rfl := (C32_same_flag_partial h₀ p ops hops).2 F w₁ h
  exact C12_form_is_variational _ _ hC.disc _ _ _ _

/-- The problem on a single slab, with or without initial values. -/
def Disc.slabProblem (D : Disc V) (wellPosed : Bool) : Disc V := { D with N := 1, wellPosed := wellPosed }

/-- The terms that the slab matrix has with forward jumps. -/
noncomputable def Spec.slabFw (S : Space V) (D : Disc V) (U W : Field V) : ℝ :=
  if D.jumpsFw then
    (1 + D.eps) * (S.mass (U 1 0) (W 2 0) + S.mass (U 0 0) (W 3 0))
      - D.gDual * D.dt * (S.mass (U 2 0) (W 2 0) + S.mass (U 3 0) (W 3 0))
  else 0

theorem slabForm_eq (S : Space V) (D : Disc V) (hD : D.Ok) (ind : V) (j : Bool) (U W : Field V) :
    evalForm S ind (D.slabForm j) U W = Spec.form S (D.slabProblem j) ind false U W + placeholder S U W
      + if j then Spec.slabFw S D U W else 0 := by
  have hD' : (D.slabProblem j).Ok := ⟨hD.elmat, hD.dt_ne⟩
  rw [← C12_form_is_variational _ _ hD']
  have e1 : ∀ U : Field V, Field.slab D 0 U = U := by
    intro U; funext c i; simp [Field.slab]
  have key := evalForm_slab_noJumps S D ind U W 0
  rw [e1, e1] at key
  have hj : evalForm S ind (D.slabForm j) U W = evalForm S ind (D.slabForm false) U W
      + evalForm S ind (D.slabDualJump j) U W + evalForm S ind (D.slabJump j) U W := by
    simp only [Disc.slabForm, evalForm_cons, evalForm_append]
    simp [Disc.slabDualJump, Disc.slabJump]
    ring
  rw [hj, key, stForm_decompose]
  cases j <;> cases hf : D.jumpsFw <;>
    simp [Disc.slabProblem, Disc.stInitial, Disc.stDualJump, Disc.stFwJump, Disc.stJump, slabPlaceholder, Disc.slabDualJump,
      Disc.slabJump, hf, Term.eval, SOp.eval, eval_at, Spec.slabFw] <;>
    simp only [Disc.core, Disc.stWave, Disc.stData, Disc.stAdj, Disc.stDual, Disc.stPrimal] <;> ring

/-- C12, slab matrices: whatever was called before, `get_slab_matrix()` returns the matrix of the variational form of
the problem on one slab with initial values imposed, and `get_slab_matrix_first_slab()` that of the problem on the
first slab as configured (both up to the placeholder, and with the lower traces of the forward jumps if these are
configured). -/
theorem C12_slab_matrix (hC : C.Ok) {w₀ : World V} (h₀ : w₀.Fresh) (ops : List (Op V)) {A : Mat} {w₁ : World V} :
    (getSlabMatrix C (runOps C ops w₀) = (.ok (some A), w₁) → A.Represents C.fe C.slab fun U W =>
      Spec.form C.S (C.D.slabProblem true) C.D.ind false U W + placeholder C.S U W + Spec.slabFw C.S C.D U W) ∧
    (getSlabMatrixFirst (runOps C ops w₀) = (.ok (some A), w₁) → A.Represents C.fe C.slab fun U W =>
      Spec.form C.S (C.D.slabProblem C.D.wellPosed) C.D.ind false U W + placeholder C.S U W
        + if C.D.wellPosed then Spec.slabFw C.S C.D U W else 0) := by
  have key : ∀ j, (slabMatOf C j).Represents C.fe C.slab fun U W =>
      Spec.form C.S (C.D.slabProblem j) C.D.ind false U W + placeholder C.S U W + if j then Spec.slabFw C.S C.D U W else 0 := by
    refine fun j => ⟨rfl, fun x y => ?_⟩
    change ∑ d ∈ range C.slab.size, _ = _
    rw [slabMatOf, assemble_pair _ _ _ _ _ hC.slab, slabForm_eq _ _ hC.disc]
  refine ⟨fun h => ?_, fun h => ?_⟩
  · rw [getSlabMatrix_eq h₀ ops h]; simpa using key true
  · rw [getSlabMatrixFirst_eq h₀ ops h]; exact key _

/-- C13: the matrix of `get_spacetime_matrix()` is symmetric up to the placeholder. -/
theorem C13_matrix (hC : C.Ok) {w₀ : World V} (h₀ : w₀.Fresh) (ops : List (Op V))
    (hops : ∀ op ∈ ops, ¬ op.OtherFlag false) {A : Mat} {w₁ : World V}
    (h : getSpacetimeMatrix C false (runOps C ops w₀) = (.ok A, w₁)) (d e : ℕ) (hd : d < A.size) (he : e < A.size) :
    let E := fun k => C.full.field C.fe (unitVec k)
    A.a d e - placeholder C.S (E e) (E d) = A.a e d - placeholder C.S (E d) (E e) := by
  intro E
  obtain rfl := (C32_same_flag_partial h₀ false ops hops).1 A w₁ h
  have hd' : d < C.full.size := hd
  have he' : e < C.full.size := he
  have := C13_symmetric C.S C.D hC.disc C.D.ind (E e) (E d)
  simpa [stMatOf, assemble, hd', he'] using this

/-- C14: the matrix of `get_spacetime_matrix()` tested with the coefficients of `(u, -z)` gives the stability energy,
up to the placeholder; changing the sign of the dual coefficients does this. -/
theorem C14_matrix (hC : C.Ok) {w₀ : World V} (h₀ : w₀.Fresh) (ops : List (Op V))
    (hops : ∀ op ∈ ops, ¬ op.OtherFlag false) {A : Mat} {w₁ : World V}
    (h : getSpacetimeMatrix C false (runOps C ops w₀) = (.ok A, w₁)) (x : Vec) :
    let U := C.full.field C.fe x
    ∃ x' : Vec, C.full.field C.fe x' = Spec.flipDual U ∧ (∀ d, x' d ^ 2 = x d ^ 2) ∧
      ∑ d ∈ range A.size, A.mult x d * x' d = Spec.energy C.S C.D C.D.ind U - 1e-20 * C.S.mass (U 0 0) (U 2 0) := by
  intro U
  obtain rfl := (C32_same_flag_partial h₀ false ops hops).1 A w₁ h
  obtain ⟨x', hx, hsq⟩ := exists_flip_sq hC.full x
  refine ⟨x', hx, hsq, ?_⟩
  change ∑ d ∈ range C.full.size, _ = _
  rw [stMatOf, assemble_pair _ _ _ _ _ hC.full, hx, C14_stability_identity _ _ hC.disc]

/-- C11: the forms handed out refer to existing components of the function spaces only. -/
theorem C11_forms_returned (hN : 1 ≤ C.D.N) {w₀ : World V} (h₀ : w₀.Fresh) (ops : List (Op V)) {F : List Term}
    {w₁ : World V} :
    (∀ p, (∀ op ∈ ops, ¬ op.OtherFlag p) → getSpacetimeBfi C p (runOps C ops w₀) = (.ok F, w₁) →
      FormWithin (fullSizes C.D.q C.D.qstar C.D.N) F) ∧
    (getSlabBfi C (runOps C ops w₀) = (.ok (some F), w₁) → FormWithin (slabSizes C.D.q C.D.qstar) F) ∧
    (getSlabBfiFirst (runOps C ops w₀) = (.ok (some F), w₁) → FormWithin (slabSizes C.D.q C.D.qstar) F) := by
  refine ⟨fun p hops h => ?_, fun h => ?_, fun h => ?_⟩
  · rw [(C32_same_flag_partial h₀ p ops hops).2 F w₁ h]; exact C11_spacetime_indices _ hN _
  · have i₁ : Inv C w₁ := by
      have := (hist_getSlabBfi (b := false) _ (inv_reach (C := C) h₀ ops)).1
      rw [h] at this; exact this
    have : w₁.obj.slabBfi = some F := by
      unfold getSlabBfi at h
      rw [M.bind_ok (M.get_run _)] at h
      have fin : ∀ w' : World V, (do
          let w' ← M.get
          return w'.obj.slabBfi : WM V _) w' = (.ok (some F), w₁) → w₁.obj.slabBfi = some F := fun w' e => by
        have e1 : w' = w₁ := congrArg Prod.snd e
        rw [← e1]; exact Except.ok.inj (congrArg Prod.fst e)
      split at h
      · obtain ⟨_, w', -, h⟩ := M.ok_bind h
        obtain ⟨_, w'', -, h⟩ := M.ok_bind h
        exact fin _ h
      · exact fin _ h
    rw [i₁.slabBfi F this]; exact C11_slab_indices _ _
  · rw [(inv_reach (C := C) h₀ ops).firstBfi F (Except.ok.inj (congrArg Prod.fst h))]; exact C11_slab_indices _ _

/-- C11, the right-hand side form. -/
theorem C11_lfi_returned (hN : 1 ≤ C.D.N) {w₀ : World V} (h₀ : w₀.Fresh) (ops : List (Op V)) {F : List (LTerm V)}
    {w₁ : World V} (h : getSpacetimeLfi C (runOps C ops w₀) = (.ok F, w₁)) :
    LinWithin (fullSizes C.D.q C.D.qstar C.D.N) F := by
  have i₁ : Inv C w₁ := by
    have := (hist_getSpacetimeLfi (b := false) _ (inv_reach (C := C) h₀ ops)).1
    rw [h] at this; exact this
  have fin : ∀ w' : World V, (M.attr (fun w => w.obj.lfi) : WM V _) w' = (.ok F, w₁) → w₁.obj.lfi = some F := by
    intro w' e
    unfold M.attr at e
    split at e
    · next a ha => cases e; exact ha
    · exact absurd (congrArg Prod.fst e) (by simp)
  have : w₁.obj.lfi = some F := by
    unfold getSpacetimeLfi at h
    rw [M.bind_ok (M.get_run _)] at h
    split at h
    · obtain ⟨_, w', -, h⟩ := M.ok_bind h
      exact fin _ h
    · exact fin _ h
  rcases i₁.rhs with ⟨e, -⟩ | ⟨u, v, e, -⟩
  · rw [e] at this; cases this
  · rw [e] at this; cases this
    exact C11_rhs_indices _ _ hN _ _ _ _

/-! ### The matrix-free product -/

/-- `A` is what `get_spacetime_matrix(precond=p)` returned on some object of this configuration on which only this
value of the flag had been requested. -/
def Cfg.Returns (C : Cfg V) (p : Bool) (A : Mat) : Prop := ∃ (w₀ : World V) (ops : List (Op V)) (w₁ : World V),
  w₀.Fresh ∧ (∀ op ∈ ops, ¬ op.OtherFlag p) ∧ getSpacetimeMatrix C p (runOps C ops w₀) = (.ok A, w₁)

theorem Cfg.Returns.eq {p : Bool} {A : Mat} (h : C.Returns p A) : A = stMatOf C p := by
  obtain ⟨w₀, ops, w₁, h₀, hops, h⟩ := h
  exact (C32_same_flag_partial h₀ p ops hops).1 A w₁ h

theorem documented_mfReady (hwp : C.D.wellPosed = false) {w₀ : World V} (h₀ : w₀.Fresh) (hf : w₀.NoFail)
    (ops : List (Op V)) : MfReady C (runOps C (.setupFE :: .prepare :: ops) w₀).obj := by
  have ho := documented (C := C) h₀ hf
  have k := keep_reach (inv_reach (C := C) h₀ [.setupFE, .prepare]) ops
  exact ⟨k.dofmaps _ (by rw [ho]; rfl), k.slabVecs _ (by rw [ho]; simp [preparedObj, hwp]),
    k.slabMatNJ _ (by rw [ho]; simp [preparedObj, hwp]), fun _ => k.coupVecs _ (by rw [ho]; rfl),
    fun _ => k.coupMat _ (by rw [ho]; rfl)⟩

theorem InVec.notMem_mf (x : InVec) : x.ref ∉ mfScratch := by cases x <;> simp [InVec.ref, mfScratch]
theorem InVec.notMem_pre (x : InVec) : x.ref ∉ preScratch := by cases x <;> simp [InVec.ref, preScratch]
theorem InVec.notMem_old (x : InVec) : x.ref ∉ oldScratch := by cases x <;> simp [InVec.ref, oldScratch]

/-- C17: after the documented calls and any others, `apply_spacetime_matrix(x, y)` returns and leaves in `y` the
product of the matrix of `get_spacetime_matrix()` with `x`, plus the placeholder terms. -/
theorem C17_returned_matrix (hC : C.Ok) (hN : 1 ≤ C.D.N) (hfw : C.D.jumpsFw = false) (hwp : C.D.wellPosed = false)
    {w₀ : World V} (h₀ : w₀.Fresh) (hf : w₀.NoFail) (ops : List (Op V)) {A : Mat} (hA : C.Returns false A)
    (x : InVec) (y : ℕ) (hxy : x.ref ≠ .user y) :
    let w := runOps C (.setupFE :: .prepare :: ops) w₀
    A.size = C.full.size ∧ ∃ w', runOp C (.apply x y) w = (.ok (), w') ∧ ∀ d < A.size,
      w'.heap (.user y) d = A.mult (w.heap x.ref) d
        + mfPlaceholders C.S C.D (C.full.field C.fe (w.heap x.ref)) (C.full.field C.fe (unitVec d)) := by
  intro w
  rw [hA.eq]
  exact ⟨rfl, C17_matrix_free_product hC hN hfw hwp w (documented_mfReady hwp h₀ hf ops) x.ref (.user y) x.notMem_mf
    (by simp [mfScratch]) hxy⟩

/-- C18, in terms of calls: whenever the matrix-free product returns, it agrees with the assembled matrix up to
placeholder terms.  This is false, see `C18_api_violated`. -/
def C18_api_statement (V : Type) [AddCommGroup V] [Module ℝ V] : Prop :=
  ∀ (C : Cfg V), C.Ok → 1 ≤ C.D.N → ∀ (w₀ : World V), w₀.Fresh → ∀ (ops : List (Op V)) (x : InVec) (y : ℕ),
    x.ref ≠ .user y → ∀ A, C.Returns false A →
    let w := runOps C ops w₀
    (runOp C (.apply x y) w).1 = .ok () → ∀ d < A.size, (runOp C (.apply x y) w).2.heap (.user y) d
      = A.mult (w.heap x.ref) d
        + mfPlaceholders C.S C.D (C.full.field C.fe (w.heap x.ref)) (C.full.field C.fe (unitVec d))

/-- C18, what does hold: whenever the product returns, whatever was called before, it plus the terms it omits is the
product with the assembled matrix plus the placeholders. -/
theorem C18_api_partial (hC : C.Ok) (hN : 1 ≤ C.D.N) {w₀ : World V} (h₀ : w₀.Fresh) (ops : List (Op V)) (x : InVec)
    (y : ℕ) (hxy : x.ref ≠ .user y) {A : Mat} (hA : C.Returns false A) {w' : World V}
    (h : runOp C (.apply x y) (runOps C ops w₀) = (.ok (), w')) (d : ℕ) (hd : d < A.size) :
    let X := (runOps C ops w₀).heap x.ref
    let U := C.full.field C.fe X
    let W := C.full.field C.fe (unitVec d)
    w'.heap (.user y) d + mfMissing C.S C.D U W = A.mult X d + mfPlaceholders C.S C.D U W := by
  rw [hA.eq] at hd ⊢
  exact C31_product_correct hC hN h₀ ops x y hxy w' h d hd

/-- C19: whenever two objects of the same configuration, whatever was called on them, both return from the product,
the results agree if the inputs do. -/
theorem C19_api_input_only (hC : C.Ok) (hN : 1 ≤ C.D.N) {w₀ v₀ : World V} (h₀ : w₀.Fresh) (g₀ : v₀.Fresh)
    (ops ops' : List (Op V)) (x x' : InVec) (y y' : ℕ) (hxy : x.ref ≠ .user y) (hxy' : x'.ref ≠ .user y')
    {w' v' : World V} (h : runOp C (.apply x y) (runOps C ops w₀) = (.ok (), w'))
    (g : runOp C (.apply x' y') (runOps C ops' v₀) = (.ok (), v'))
    (heq : ∀ d < C.full.size, (runOps C ops w₀).heap x.ref d = (runOps C ops' v₀).heap x'.ref d) :
    ∀ d < C.full.size, w'.heap (.user y) d = v'.heap (.user y') d := by
  intro d hd
  have h1 := C31_product_correct hC hN h₀ ops x y hxy w' h d hd
  have h2 := C31_product_correct hC hN g₀ ops' x' y' hxy' v' g d hd
  have e1 := field_congr C.full C.fe hC.full heq
  have e2 : (stMatOf C false).mult ((runOps C ops w₀).heap x.ref) d
      = (stMatOf C false).mult ((runOps C ops' v₀).heap x'.ref) d := by
    rw [stMatOf, assemble_mult _ _ _ _ _ hC.full _ hd, assemble_mult _ _ _ _ _ hC.full _ hd, e1]
  simp only at h1 h2
  rw [e2, e1] at h1
  linarith

/-- C19: linearity, for three objects of the same configuration. -/
theorem C19_api_linear (hC : C.Ok) (hN : 1 ≤ C.D.N) {w₀ v₀ u₀ : World V} (h₀ : w₀.Fresh) (g₀ : v₀.Fresh) (k₀ : u₀.Fresh)
    (ops₁ ops₂ ops₃ : List (Op V)) (x y : ℕ) (a b : ℝ) {w' v' u' : World V}
    (h : runOp C (.apply (.user x) y) (runOps C ops₁ w₀) = (.ok (), w'))
    (g : runOp C (.apply (.user x) y) (runOps C ops₂ v₀) = (.ok (), v'))
    (k : runOp C (.apply (.user x) y) (runOps C ops₃ u₀) = (.ok (), u'))
    (heq : (runOps C ops₃ u₀).heap (.user x)
      = a • (runOps C ops₁ w₀).heap (.user x) + b • (runOps C ops₂ v₀).heap (.user x)) :
    u'.heap (.user y) = a • w'.heap (.user y) + b • v'.heap (.user y) := by
  have hm : ∀ k, Ref.user k ∉ mfScratch := by simp [mfScratch]
  obtain ⟨w₁, w₂, w₃, e1, e2, e3, e⟩ := C19_linear hC _ _ _ (ready_of_apply hN (inv_reach h₀ ops₁) h)
    (ready_of_apply hN (inv_reach g₀ ops₂) g) (ready_of_apply hN (inv_reach k₀ ops₃) k) (.user x) (.user y) (hm x) (hm y)
    a b heq
  change applySpacetimeMatrix C _ _ _ = _ at h g k
  simp only [InVec.ref] at h g k
  rw [h] at e1; rw [g] at e2; rw [k] at e3
  cases e1; cases e2; cases e3
  exact e

/-- C19: the same vector as input and output gives zero, whatever was called before, if the call returns. -/
theorem C19_api_alias (hC : C.Ok) (hN : 1 ≤ C.D.N) {w₀ : World V} (h₀ : w₀.Fresh) (ops : List (Op V)) (k : ℕ)
    {w' : World V} (h : runOp C (.apply (.user k) k) (runOps C ops w₀) = (.ok (), w')) : w'.heap (.user k) = 0 := by
  obtain ⟨w₁, e, e'⟩ := C19_alias_zero hC _ (ready_of_apply hN (inv_reach h₀ ops) h) (.user k) (by simp [mfScratch])
  change applySpacetimeMatrix C _ _ _ = _ at h
  simp only [InVec.ref] at h
  rw [h] at e; cases e
  exact e'

/-! ### The preconditioner -/

/-- `A₁` is what `get_slab_matrix_first_slab()` and `A₂` what `get_slab_matrix()` returned on objects of this
configuration, at any time. -/
def Cfg.ReturnsSlab (C : Cfg V) (A₁ A₂ : Mat) : Prop :=
  (∃ (w₀ : World V) (ops : List (Op V)) (w₁ : World V), w₀.Fresh ∧
    getSlabMatrixFirst (runOps C ops w₀) = (.ok (some A₁), w₁)) ∧
  ∃ (w₀ : World V) (ops : List (Op V)) (w₁ : World V), w₀.Fresh ∧ getSlabMatrix C (runOps C ops w₀) = (.ok (some A₂), w₁)

theorem Cfg.ReturnsSlab.eq {A₁ A₂ : Mat} (h : C.ReturnsSlab A₁ A₂) :
    A₁ = slabMatOf C C.D.wellPosed ∧ A₂ = slabMatOf C true := by
  obtain ⟨⟨w, ops, w₁, h₀, h⟩, ⟨w', ops', w₁', h₀', h'⟩⟩ := h
  exact ⟨getSlabMatrixFirst_eq h₀ ops h, getSlabMatrix_eq h₀' ops' h'⟩

section
variable {w₀ v₀ u₀ : World V} {fF fS : Vec → Py Vec} {ops ops₂ ops₃ : List (Op V)}

/-- C21: if the user's solvers recover `v` from `A₁ v` and `A₂ v` for the slab matrices handed out, then after the
documented calls and any others the preconditioner applied to `P y` (placeholders included) returns `y`, where `P` is
what `get_spacetime_matrix(precond=True)` returns. -/
theorem C21_returned_matrices (hC : C.Ok) (hN : 1 ≤ C.D.N) (hfw : C.D.jumpsFw = false) (h₀ : w₀.Fresh) (hf : w₀.NoFail)
    (hs : SolversSet C ops fF fS) {A₁ A₂ P : Mat} (hA : C.ReturnsSlab A₁ A₂) (hF : LeftInverse fF A₁)
    (hS : LeftInverse fS A₂) (hP : C.Returns true P) (b : InVec) (x : ℕ) (y : Vec) :
    let w := runOps C (.setupFE :: .prepare :: ops) w₀
    (∀ d < P.size, w.heap b.ref d = P.mult y d + (∑ n ∈ range C.D.N, if n = 0 then 0 else 1e-20 * C.S.mass
            (C.full.field C.fe y 0 (n * (C.D.q + 1))) (C.full.field C.fe (unitVec d) 2 (n * (C.D.qstar + 1))))) →
    ∃ w', runOp C (.preImproved b x) w = (.ok (), w') ∧ ∀ d < P.size, w'.heap (.user x) d = y d := by
  rw [hP.eq]
  rw [hA.eq.1] at hF
  rw [hA.eq.2] at hS
  intro w hy
  exact C21_recovers hC hN hfw w (documented_preReady h₀ hf hs) hF hS b.ref (.user x) b.notMem_pre (by simp [preScratch])
    y hy

/-- C22: the two variants on objects prepared in the documented way with solvers that compute the same. -/
theorem C22_api (hC : C.Ok) (hfw : C.D.jumpsFw = false) (h₀ : w₀.Fresh) (hf : w₀.NoFail) (hs : SolversSet C ops fF fS)
    (g₀ : v₀.Fresh) (gf : v₀.NoFail) (gs : SolversSet C ops₂ fF fS) (b b' : InVec) (x x' : ℕ) :
    let w := runOps C (.setupFE :: .prepare :: ops) w₀
    let v := runOps C (.setupFE :: .prepare :: ops₂) v₀
    (∀ n < C.D.N, ∀ c l s, l < C.slab.nsub c → s < C.fe.m c →
      v.heap b'.ref (C.full.dof c (slabIx C.D n c l) s)
        = w.heap b.ref (C.full.dof c (slabIx C.D n c l) s) + placeholderLoad C (C.slab.dof c l s)) →
    (runOp C (.pre b x) w).1 = (runOp C (.preImproved b' x') v).1 ∧
    ((runOp C (.pre b x) w).1 = .ok () → ∀ d < C.full.size,
      (runOp C (.pre b x) w).2.heap (.user x) d = (runOp C (.preImproved b' x') v).2.heap (.user x') d) :=
  C22_variants_agree hC hfw _ _ (documented_preReady h₀ hf hs).toSolReady (documented_preReady g₀ gf gs) b.ref (.user x)
    b'.ref (.user x') b.notMem_old (by simp [oldScratch]) b'.notMem_pre (by simp [preScratch])

/-- C23: causality of both variants on prepared objects; the first variant also with forward jumps. -/
theorem C23_api (hC : C.Ok) (h₀ : w₀.Fresh) (hf : w₀.NoFail) (hs : SolversSet C ops fF fS)
    (g₀ : v₀.Fresh) (gf : v₀.NoFail) (gs : SolversSet C ops₂ fF fS) (b : InVec) (x : ℕ) (n : ℕ) (hn : n ≤ C.D.N) :
    let w := runOps C (.setupFE :: .prepare :: ops) w₀
    let v := runOps C (.setupFE :: .prepare :: ops₂) v₀
    (∀ k < n, ∀ c l s, l < C.slab.nsub c → s < C.fe.m c →
      w.heap b.ref (C.full.dof c (slabIx C.D k c l) s) = v.heap b.ref (C.full.dof c (slabIx C.D k c l) s)) →
    (C.D.jumpsFw = false → (runOp C (.preImproved b x) w).1 = .ok () →
      ∀ k < n, ∀ c l s, l < C.slab.nsub c → s < C.fe.m c →
      (runOp C (.preImproved b x) v).2.heap (.user x) (C.full.dof c (slabIx C.D k c l) s)
        = (runOp C (.preImproved b x) w).2.heap (.user x) (C.full.dof c (slabIx C.D k c l) s)) ∧
    ((runOp C (.pre b x) w).1 = .ok () →
      ∀ k < n, ∀ c l s, l < C.slab.nsub c → s < C.fe.m c →
      (runOp C (.pre b x) v).2.heap (.user x) (C.full.dof c (slabIx C.D k c l) s)
        = (runOp C (.pre b x) w).2.heap (.user x) (C.full.dof c (slabIx C.D k c l) s)) := by
  intro w v heq
  refine ⟨fun hfw hok => ?_, fun hok => ?_⟩
  · exact C23_causal hC hfw w v (documented_preReady h₀ hf hs) (documented_preReady g₀ gf gs) b.ref (.user x)
      b.notMem_pre (by simp [preScratch]) n hn heq hok
  · exact C23_causal_first_variant hC w v (documented_preReady h₀ hf hs).toSolReady
      (documented_preReady g₀ gf gs).toSolReady b.ref (.user x) b.notMem_old (by simp [oldScratch]) n hn heq hok

/-- C24: outcome and result depend only on `b` and the solvers, for both variants and prepared objects with any
further calls. -/
theorem C24_api (hC : C.Ok) (h₀ : w₀.Fresh) (hf : w₀.NoFail) (hs : SolversSet C ops fF fS)
    (g₀ : v₀.Fresh) (gf : v₀.NoFail) (gs : SolversSet C ops₂ fF fS) (b b' : InVec) (x x' : ℕ) :
    let w := runOps C (.setupFE :: .prepare :: ops) w₀
    let v := runOps C (.setupFE :: .prepare :: ops₂) v₀
    (∀ d < C.full.size, w.heap b.ref d = v.heap b'.ref d) →
    (C.D.jumpsFw = false → (runOp C (.preImproved b x) w).1 = (runOp C (.preImproved b' x') v).1 ∧
      ((runOp C (.preImproved b x) w).1 = .ok () → ∀ d < C.full.size,
        (runOp C (.preImproved b x) w).2.heap (.user x) d = (runOp C (.preImproved b' x') v).2.heap (.user x') d)) ∧
    (runOp C (.pre b x) w).1 = (runOp C (.pre b' x') v).1 ∧
      ((runOp C (.pre b x) w).1 = .ok () → ∀ d < C.full.size,
        (runOp C (.pre b x) w).2.heap (.user x) d = (runOp C (.pre b' x') v).2.heap (.user x') d) := by
  intro w v heq
  refine ⟨fun hfw => ?_, ?_⟩
  · exact C24_depends_on_rhs_only hC hfw w v (documented_preReady h₀ hf hs) (documented_preReady g₀ gf gs) b.ref
      (.user x) b'.ref (.user x') b.notMem_pre (by simp [preScratch]) b'.notMem_pre (by simp [preScratch]) heq
  · exact C24_depends_on_rhs_only_first_variant hC w v (documented_preReady h₀ hf hs).toSolReady
      (documented_preReady g₀ gf gs).toSolReady b.ref (.user x) b'.ref (.user x') b.notMem_old (by simp [oldScratch])
      b'.notMem_old (by simp [oldScratch]) heq

/-- C24: linear in `b` if the slab solvers are linear. -/
theorem C24_api_linear (hC : C.Ok) (hfw : C.D.jumpsFw = false) (h₀ : w₀.Fresh) (hf : w₀.NoFail)
    (hs : SolversSet C ops fF fS) (g₀ : v₀.Fresh) (gf : v₀.NoFail) (gs : SolversSet C ops₂ fF fS)
    (k₀ : u₀.Fresh) (kf : u₀.NoFail) (ks : SolversSet C ops₃ fF fS) (hF : SolLinear C.slab.size fF)
    (hS : SolLinear C.slab.size fS) (b : InVec) (x : ℕ) (a a' : ℝ) :
    let w := runOps C (.setupFE :: .prepare :: ops) w₀
    let v := runOps C (.setupFE :: .prepare :: ops₂) v₀
    let u := runOps C (.setupFE :: .prepare :: ops₃) u₀
    u.heap b.ref = a • w.heap b.ref + a' • v.heap b.ref →
    (runOp C (.preImproved b x) w).1 = .ok () → (runOp C (.preImproved b x) v).1 = .ok () →
    (runOp C (.preImproved b x) u).1 = .ok () ∧ ∀ d < C.full.size,
      (runOp C (.preImproved b x) u).2.heap (.user x) d = a * (runOp C (.preImproved b x) w).2.heap (.user x) d
        + a' * (runOp C (.preImproved b x) v).2.heap (.user x) d := by
  intro w v u heq r₁ r₂
  obtain ⟨u', e, e'⟩ := C24_linear hC hfw w v u (documented_preReady h₀ hf hs) (documented_preReady g₀ gf gs)
    (documented_preReady k₀ kf ks) hF hS b.ref (.user x) b.notMem_pre (by simp [preScratch]) a a' heq _ _
    (Prod.ext r₁ rfl) (Prod.ext r₂ rfl)
  change (preTimeMarchingImproved C b.ref (.user x) u).1 = _ ∧ ∀ d < _, (preTimeMarchingImproved C b.ref (.user x) u).2.heap _ d = _
  rw [e]
  exact ⟨rfl, e'⟩

/-- C25: with forward jumps the improved variant raises `ValueError` in every state and leaves every vector of the
caller alone; without, on a prepared object, it raises only what a slab solver raised. -/
theorem C25_api (hC : C.Ok) (h₀ : w₀.Fresh) (b : InVec) (x : ℕ) :
    (C.D.jumpsFw = true → ∀ any : List (Op V), (runOp C (.preImproved b x) (runOps C any w₀)).1 = .error .valueError ∧
      ∀ k, (runOp C (.preImproved b x) (runOps C any w₀)).2.heap (.user k) = (runOps C any w₀).heap (.user k)) ∧
    (C.D.jumpsFw = false → w₀.NoFail → SolversSet C ops fF fS → ∀ e,
      (runOp C (.preImproved b x) (runOps C (.setupFE :: .prepare :: ops) w₀)).1 = .error e →
      (∃ r, fF r = .error e) ∨ ∃ r, fS r = .error e) := by
  refine ⟨fun hfw any => ?_, fun hfw hf hs e he => ?_⟩
  · have := C25_rejected (C := C) hfw (runOps C any w₀) b.ref (.user x)
    change (preTimeMarchingImproved C b.ref (.user x) _).1 = _ ∧ ∀ k, (preTimeMarchingImproved C b.ref (.user x) _).2.heap _ = _
    rw [this]
    exact ⟨rfl, fun _ => rfl⟩
  · exact C25_only_then hC hfw _ (documented_preReady h₀ hf hs) b.ref (.user x) b.notMem_pre (by simp [preScratch]) e he

/-- C26: when the improved variant raises on a prepared object, the exception is that of a slab solver, and the blocks
of that slab and the later ones keep their content.  The next call with a repaired solver on the same object has the
same outcome and result as on any other prepared object with such solvers. -/
theorem C26_api (hC : C.Ok) (hfw : C.D.jumpsFw = false) (h₀ : w₀.Fresh) (hf : w₀.NoFail) (hs : SolversSet C ops fF fS)
    (b : InVec) (x : ℕ) {e : PyErr}
    (he : (runOp C (.preImproved b x) (runOps C (.setupFE :: .prepare :: ops) w₀)).1 = .error e) :
    let w := runOps C (.setupFE :: .prepare :: ops) w₀
    let w' := (runOp C (.preImproved b x) w).2
    (∃ n < C.D.N, (∃ r, (if n = 0 then fF else fS) r = .error e) ∧
      ∀ k, n ≤ k → k < C.D.N → ∀ c l s, l < C.slab.nsub c → s < C.fe.m c →
        w'.heap (.user x) (C.full.dof c (slabIx C.D k c l) s) = w.heap (.user x) (C.full.dof c (slabIx C.D k c l) s)) ∧
    ∀ (gF gS : Vec → Py Vec) (s₁ s₂ : Solver), s₁.Computes C.slab.size gF → s₂.Computes C.slab.size gS →
      ∀ (v₀ : World V), v₀.Fresh → v₀.NoFail → ∀ ops₂, SolversSet C ops₂ gF gS → ∀ (b' : InVec) (x' : ℕ),
      let w₂ := runOps C [.setSolverFirst s₁, .setSolverSlab s₂] w'
      let v := runOps C (.setupFE :: .prepare :: ops₂) v₀
      (∀ d < C.full.size, w₂.heap b'.ref d = v.heap b'.ref d) →
      (runOp C (.preImproved b' x') w₂).1 = (runOp C (.preImproved b' x') v).1 ∧
      ((runOp C (.preImproved b' x') w₂).1 = .ok () → ∀ d < C.full.size,
        (runOp C (.preImproved b' x') w₂).2.heap (.user x') d = (runOp C (.preImproved b' x') v).2.heap (.user x') d) := by
  intro w w'
  have hp := documented_preReady h₀ hf hs
  refine ⟨(C26_failure_frame hC hfw w hp b.ref (.user x) b.notMem_pre (by simp [preScratch]) e he).2, ?_⟩
  intro gF gS s₁ s₂ c₁ c₂ v₀ g₀ gf ops₂ gs b' x' w₂ v heq
  exact C26_retry_like_fresh hC hfw w hp b.ref (.user x) b.notMem_pre (by simp [preScratch]) s₁ s₂ c₁ c₂ w₂ rfl v
    (documented_preReady g₀ gf gs) b'.ref (.user x') b'.notMem_pre (by simp [preScratch]) heq

end

/-! ### Reports, files and plots -/

/-- C42: whatever was called before, the report returned by `measured_errors(x)` is the one for the vector passed. -/
theorem C42_any_history (hM : C.Meas) (hS : ∀ u, 0 ≤ C.S.mass u u) {w₀ : World V} (h₀ : w₀.Fresh) (ops : List (Op V))
    (x : InVec) {r : ErrDict} {w' : World V} (h : measuredErrors C x.ref (runOps C ops w₀) = (.ok r, w')) :
    Report C ((runOps C ops w₀).heap x.ref) r := by
  have hd : (runOps C ops w₀).obj.dofmaps = some (mkDofmaps C) := by
    rcases hd : (runOps C ops w₀).obj.dofmaps with _ | d
    · refine absurd (congrArg Prod.fst h) ?_
      simp [measuredErrors, loadFinal, M.bind_run, M.attr, hd]
    · rw [(inv_reach (C := C) h₀ ops).dofmaps d hd]
  have := C42_report hM hS hd x.ref
  rw [h] at this
  exact this.1

/-- C42: it does return on an object whose finite elements were set up, unless an external call fails. -/
theorem C42_returns (hM : C.Meas) (hS : ∀ u, 0 ≤ C.S.mass u u) {w₀ : World V} (h₀ : w₀.Fresh) (hf : w₀.NoFail)
    (ops : List (Op V)) (x : InVec) :
    ∃ r w', measuredErrors C x.ref (runOps C (.setupFE :: ops) w₀) = (.ok r, w') := by
  have k := keep_reach (inv_reach (C := C) h₀ [.setupFE]) ops
  have hd : (runOps C (.setupFE :: ops) w₀).obj.dofmaps = some (mkDofmaps C) :=
    k.dofmaps _ (by
      change (setupFE C w₀).2.obj.dofmaps = _
      rw [(setupFE_fresh (C := C) h₀ hf).2]; rfl)
  have hn : (runOps C (.setupFE :: ops) w₀).NoFail :=
    NoFail.of_keep hf (keep_reach (C := C) (Inv.of_fresh h₀) (.setupFE :: ops))
  have := C42_report hM hS hd x.ref
  rcases hr : measuredErrors C x.ref (runOps C (.setupFE :: ops) w₀) with ⟨e | r, w'⟩
  · rw [hr] at this
    obtain ⟨-, k, hk, hk'⟩ := this
    rw [hn k hk] at hk'; cases hk'
  · exact ⟨r, w', rfl⟩

/-- C72: whatever was called before, the files that `plot_para_view(x, name)` writes are the two described by
`C72_files`. -/
theorem C72_any_history (hC : C.Ok) (hM : C.Meas) {ev : ℕ → V →ₗ[ℝ] ℝ} (he : C.fe.Nodal ev) {interp1 interp2 : V → List ℝ}
    (hi1 : Evaluates C.fe ev interp1) (hi2 : Evaluates C.fe ev interp2) {w₀ : World V} (h₀ : w₀.Fresh)
    (ops : List (Op V)) (x : InVec) (name : String) {r : List XFile} {w' : World V}
    (h : plotParaViewFiles C interp1 interp2 x.ref name (runOps C ops w₀) = (.ok r, w')) :
    let U := C.full.field C.fe ((runOps C ops w₀).heap x.ref)
    ∃ a b, r = [⟨name ++ "-u.xdmf", "u-abserr", a⟩, ⟨name ++ "-ut.xdmf", "ut-abserr", b⟩] ∧
      NodalError C.fe ev (C.D.sol C.T) (Spec.val C.D.q C.D.dt (C.D.N - 1) (U 0) C.T) a ∧
      NodalError C.fe ev (C.dsol C.T) (Spec.val C.D.q C.D.dt (C.D.N - 1) (U 1) C.T) b := by
  have hd : (runOps C ops w₀).obj.dofmaps = some (mkDofmaps C) := by
    rcases hd : (runOps C ops w₀).obj.dofmaps with _ | d
    · refine absurd (congrArg Prod.fst h) ?_
      simp [plotParaViewFiles, loadFinal, M.bind_run, M.attr, hd]
    · rw [(inv_reach (C := C) h₀ ops).dofmaps d hd]
  have := C72_files hC hM he hi1 hi2 hd x.ref name
  rw [h] at this
  exact this.1

theorem plotTables_run {nSpace nSub : ℕ} {ev : ℕ → V → ℝ} {g : ℝ → ℕ → ℝ → ℝ → List ℝ} {w₀ : World V} (h₀ : w₀.Fresh)
    {ops : List (Op V)} {u : Ref} {r : List ℝ × List (ℕ × ℕ × List ℝ)} {w' : World V}
    (h : plotTables C nSpace nSub ev g u (runOps C ops w₀) = (.ok r, w')) :
    ∃ st, plotLoop C (mkDofmaps C) nSpace nSub ev g ((runOps C ops w₀).heap u) { slab := 0 } = (.ok (), st) ∧
      st.ts = r.1 ∧ st.cells = r.2 := by
  rcases hd : (runOps C ops w₀).obj.dofmaps with _ | d
  · refine absurd (congrArg Prod.fst h) ?_
    simp [plotTables, M.bind_run, M.attr, hd]
  have hd' := (inv_reach (C := C) h₀ ops).dofmaps d hd
  unfold plotTables at h
  rw [M.bind_ok (M.attr_some (f := fun w : World V => w.obj.dofmaps) hd), M.bind_ok (show getVec u _ = (.ok _, _) from rfl), hd'] at h
  rcases hl : plotLoop C (mkDofmaps C) nSpace nSub ev g ((runOps C ops w₀).heap u) { slab := 0 } with ⟨e | _, st⟩
  · simp only [hl] at h
    exact absurd (congrArg Prod.fst h) (by simp [M.raise])
  · simp only [hl] at h
    obtain ⟨_, w₁, -, h⟩ := M.ok_bind h
    have : (st.ts, st.cells) = r := Except.ok.inj (congrArg Prod.fst h)
    exact ⟨st, rfl, by rw [← this], by rw [← this]⟩

/-- C43: whatever was called before, what `plot(x)` draws are the tables of the vector passed. -/
theorem C43_any_history (hD : C.D.Ok) (hdt : 0 < C.D.dt) {nSpace nSub : ℕ} (hs : 0 < nSpace) (ev : ℕ → V →ₗ[ℝ] ℝ)
    (trafo : ℝ → ℝ) {w₀ : World V} (h₀ : w₀.Fresh) (ops : List (Op V)) (u : InVec) {ts : List ℝ}
    {cells : List (ℕ × ℕ × List ℝ)} {w' : World V}
    (h : plotTables C nSpace nSub (fun j => ev j) (plotEntries trafo) u.ref (runOps C ops w₀) = (.ok (ts, cells), w')) :
    let v := (runOps C ops w₀).heap u.ref
    ts.length = nSub * C.D.N ∧
    (∀ n m, n < C.D.N → m < nSub → ts.getD (n * nSub + m) 0 = (n + (m : ℝ) / nSub) * C.D.dt) ∧
    (keys cells).Nodup ∧ (∀ r j, (r, j) ∈ keys cells ↔ r < nSub * C.D.N ∧ j < nSpace) ∧
    ∀ r j x, (r, j, x) ∈ cells →
      x = [trafo (ev j (C.discrete v (r / nSub) (((r % nSub : ℕ) : ℝ) / nSub))),
           trafo (ev j (C.discreteDot v (r / nSub) (((r % nSub : ℕ) : ℝ) / nSub)))] := by
  obtain ⟨st, e, rfl, rfl⟩ := plotTables_run h₀ h
  obtain ⟨st', e', t1, t2, -, t4, t5, -⟩ := C43_tables hD hdt (nSub := nSub) hs ev (plotEntries trafo)
    ((runOps C ops w₀).heap u.ref) 0
  obtain ⟨st'', e'', t6⟩ := C43_plot hD (nSub := nSub) hs ev trafo ((runOps C ops w₀).heap u.ref) 0
  rw [e] at e' e''
  cases e'; cases e''
  exact ⟨t1, t2, t4, t5, t6⟩

/-- C43: the same for `plot_error(x)`. -/
theorem C43_error_any_history (hD : C.D.Ok) (hdt : 0 < C.D.dt) {nSpace nSub : ℕ} (hs : 0 < nSpace) (ev : ℕ → V →ₗ[ℝ] ℝ)
    {w₀ : World V} (h₀ : w₀.Fresh) (ops : List (Op V)) (x : InVec) {ts : List ℝ}
    {cells : List (ℕ × ℕ × List ℝ)} {w' : World V}
    (h : plotTables C nSpace nSub (fun j => ev j) (plotErrorEntries (fun t j => ev j (C.D.sol t))
      (fun t j => ev j (C.dsol t))) x.ref (runOps C ops w₀) = (.ok (ts, cells), w')) :
    let v := (runOps C ops w₀).heap x.ref
    ts.length = nSub * C.D.N ∧
    (∀ n m, n < C.D.N → m < nSub → ts.getD (n * nSub + m) 0 = (n + (m : ℝ) / nSub) * C.D.dt) ∧
    (keys cells).Nodup ∧ (∀ r j, (r, j) ∈ keys cells ↔ r < nSub * C.D.N ∧ j < nSpace) ∧
    ∀ r j y, (r, j, y) ∈ cells →
      let u := C.discrete v (r / nSub) (((r % nSub : ℕ) : ℝ) / nSub)
      let d := C.discreteDot v (r / nSub) (((r % nSub : ℕ) : ℝ) / nSub)
      y = [ev j u, |ev j (u - C.D.sol (C.rowTime nSub r))|, ev j d, |ev j (d - C.dsol (C.rowTime nSub r))|] := by
  obtain ⟨st, e, rfl, rfl⟩ := plotTables_run h₀ h
  obtain ⟨st', e', t1, t2, -, t4, t5, -⟩ := C43_tables hD hdt (nSub := nSub) hs ev (plotErrorEntries
    (fun t j => ev j (C.D.sol t)) (fun t j => ev j (C.dsol t))) ((runOps C ops w₀).heap x.ref) 0
  obtain ⟨st'', e'', t6⟩ := C43_plot_error hD (nSub := nSub) hs ev ((runOps C ops w₀).heap x.ref) 0
  rw [e] at e' e''
  cases e'; cases e''
  exact ⟨t1, t2, t4, t5, t6⟩

/-- C43: plotting returns on every object whose finite elements are set up, unless an external call fails, and then
has exactly the effect on the object that `Op.plot` models. -/
theorem C43_returns (hD : C.D.Ok) (hdt : 0 < C.D.dt) {nSpace nSub : ℕ} (hs : 0 < nSpace) (ev : ℕ → V →ₗ[ℝ] ℝ)
    (g : ℝ → ℕ → ℝ → ℝ → List ℝ) {w₀ : World V} (h₀ : w₀.Fresh) (hf : w₀.NoFail) (ops : List (Op V)) (x : InVec) :
    let w := runOps C (.setupFE :: ops) w₀
    ∃ r w', plotTables C nSpace nSub (fun j => ev j) g x.ref w = (.ok r, w') ∧ w' = (runOp C (.plot x) w).2 := by
  intro w
  have k := keep_reach (inv_reach (C := C) h₀ [.setupFE]) ops
  have hd : w.obj.dofmaps = some (mkDofmaps C) := k.dofmaps _ (by
      change (setupFE C w₀).2.obj.dofmaps = _
      rw [(setupFE_fresh (C := C) h₀ hf).2]; rfl)
  have hn : w.NoFail := NoFail.of_keep hf (keep_reach (C := C) (Inv.of_fresh h₀) (.setupFE :: ops))
  obtain ⟨st, e, -⟩ := C43_tables hD hdt (nSub := nSub) hs ev g (w.heap x.ref) 0
  refine ⟨(st.ts, st.cells), (runOp C (.plot x) w).2, ?_, rfl⟩
  have h1 : w.sched w.clock = false := hn _ le_rfl
  have h2 : getVec x.ref w = (.ok (w.heap x.ref), w) := rfl
  unfold plotTables
  rw [M.bind_ok (M.attr_some (f := fun w : World V => w.obj.dofmaps) hd), M.bind_ok h2]
  simp only [e, runOp, plot]
  rw [M.bind_ok (M.attr_some (f := fun w : World V => w.obj.dofmaps) hd), M.bind_ok h2]
  simp [M.bind_run, ext, h1]

/-! ## Non-vacuity -/

/-- After writing a vector the caller reads what they wrote. -/
theorem runOps_write (C : Cfg V) (ops : List (Op V)) (k : ℕ) (v : Vec) (w : World V) :
    (runOps C (ops ++ [.write k v]) w).heap (.user k) = v := by
  rw [runOps, List.foldl_append]
  exact Function.update_self _ _ _

namespace Example
open Polynomial

theorem returns (C : Cfg V) (p : Bool) : C.Returns p (stMatOf C p) := by
  obtain ⟨w₁, h⟩ := getMatrix_ok C p fun _ => 0
  exact ⟨freshWorld fun _ => 0, [.setupFE], w₁, freshWorld_fresh _, by simp [Op.OtherFlag], h⟩

theorem returnsSlab (C : Cfg V) : ∃ A₁ A₂, C.ReturnsSlab A₁ A₂ := by
  obtain ⟨A₁, A₂, w₁, w₂, h1, h2, -⟩ := C78_matrices_available (C := C) (w₀ := freshWorld fun _ => 0) rfl
    (fun _ _ => rfl) []
  exact ⟨A₁, A₂, ⟨_, _, _, freshWorld_fresh _, h1⟩, _, _, _, freshWorld_fresh _, h2⟩

/-- The returned matrices of the example. -/
example : ∃ A, (cfg true true).Returns true A ∧ A.Represents fe (cfg true true).full fun U W =>
    Spec.form polySpace (disc true true) (disc true true).ind true U W + placeholder polySpace U W := by
  obtain ⟨w₀, ops, w₁, h₀, hops, h⟩ := returns (cfg true true) true
  exact ⟨_, returns _ _, C12_matrix (cfg_ok true true) h₀ true ops hops h⟩

example : ∃ A₁ A₂, (cfg true true).ReturnsSlab A₁ A₂ ∧ A₂.Represents fe (cfg true true).slab fun U W =>
    Spec.form polySpace ((disc true true).slabProblem true) (disc true true).ind false U W + placeholder polySpace U W
      + Spec.slabFw polySpace (disc true true) U W := by
  obtain ⟨A₁, A₂, h⟩ := returnsSlab (cfg true true)
  obtain ⟨w₀, ops, w₁, h₀, h2⟩ := h.2
  exact ⟨A₁, A₂, h, (C12_slab_matrix (cfg_ok true true) h₀ ops).1 h2⟩

example : ∃ A, (cfg true false).Returns false A ∧ ∀ x, ∃ x' : Vec, (∀ d, x' d ^ 2 = x d ^ 2) ∧
    ∑ d ∈ range A.size, A.mult x d * x' d
      = Spec.energy polySpace (disc true false) (disc true false).ind ((cfg true false).full.field fe x)
        - 1e-20 * polySpace.mass ((cfg true false).full.field fe x 0 0) ((cfg true false).full.field fe x 2 0) := by
  obtain ⟨w₀, ops, w₁, h₀, hops, h⟩ := returns (cfg true false) false
  refine ⟨_, returns _ _, fun x => ?_⟩
  obtain ⟨x', -, h1, h2⟩ := C14_matrix (cfg_ok true false) h₀ ops hops h x
  exact ⟨x', h1, h2⟩

example (heap : Ref → Vec) : ∃ A : Mat, ∃ w', runOp (cfg false false) (.apply (.user 0) 1)
      (runOps (cfg false false) [.setupFE, .prepare, .write 0 (unitVec 5)] (freshWorld heap)) = (.ok (), w') ∧
    ∀ d < A.size, w'.heap (.user 1) d = A.mult (unitVec 5) d
      + mfPlaceholders polySpace (disc false false) ((cfg false false).full.field fe (unitVec 5))
          ((cfg false false).full.field fe (unitVec d)) := by
  have key := (C17_returned_matrix (cfg_ok false false) (by decide) rfl rfl (freshWorld_fresh heap) (freshWorld_noFail heap)
    [.write 0 (unitVec 5)] (returns _ _) (.user 0) 1 (by simp [InVec.ref])).2
  have e : (runOps (cfg false false) [.setupFE, .prepare, .write 0 (unitVec 5)] (freshWorld heap)).heap (.user 0)
      = unitVec 5 := runOps_write _ [.setupFE, .prepare] _ _ _
  obtain ⟨w', h1, h2⟩ := key
  refine ⟨_, w', h1, fun d hd => (h2 d hd).trans ?_⟩
  rw [show InVec.ref (.user 0) = .user 0 from rfl, e]
  rfl

end Example

/-- C18 does not hold of the code: the caller sets up the slab matrix explicitly, so that the product returns with
`well_posed=True`, and multiplies a unit vector. -/
theorem C18_api_violated : ¬ C18_api_statement ℝ[X] := by
  intro h
  have hC := Example.cfg_ok false true
  have hret := C29_explicit_setup_partial hC (Example.freshWorld_fresh fun _ => 0) (Example.freshWorld_noFail _)
    [.write 0 (unitVec ((Example.cfg false true).full.dof 0 0 0))] (.user 0) 1
  obtain ⟨ops, hops⟩ : ∃ ops : List (Op ℝ[X]), ops = .setupFE :: .prepare :: .setupSlab false ::
    [.write 0 (unitVec ((Example.cfg false true).full.dof 0 0 0))] := ⟨_, rfl⟩
  rw [← hops] at hret
  have hx : (runOps (Example.cfg false true) ops (Example.freshWorld fun _ => 0)).heap (.user 0)
      = unitVec ((Example.cfg false true).full.dof 0 0 0) := by
    rw [hops]; exact runOps_write _ [.setupFE, .prepare, .setupSlab false] _ _ _
  have hr := ready_of_apply (C := Example.cfg false true) (by decide) (inv_reach (Example.freshWorld_fresh _) ops)
    (Prod.ext hret rfl : applySpacetimeMatrix _ _ _ _ = (.ok (), _))
  obtain ⟨w', e, hlt⟩ := C18_violated_well_posed hC (by decide) rfl rfl (by decide)
    (by norm_num [Example.cfg, Example.disc]) (by norm_num [Example.cfg, Example.disc])
    (Example.polySpace_mass_pos Example.one_sub_X_ne) (Example.polySpace_psd.stiff _) _ hr (.user 0) (.user 1)
    (Example.user_notMem 0) (Example.user_notMem 1) (by decide) hx
  have key := h _ hC (by decide) _ (Example.freshWorld_fresh fun _ => 0) ops (.user 0) 1 (by simp [InVec.ref]) _
    (Example.returns _ _) hret ((Example.cfg false true).full.dof 0 0 0)
    (hC.full.lt 0 0 0 (by rw [hC.fullN]; decide) (by decide))
  change (applySpacetimeMatrix _ _ _ _).2.heap _ _ = _ at key
  simp only [InVec.ref] at key
  rw [e] at key
  exact hlt.ne key

namespace Example
open Polynomial

theorem scale_set (C : Cfg V) (fF fS : Vec → Py Vec) : SolversSet C
    [.setSolverFirst (solverOf fF), .setSolverSlab (solverOf fS)] fF fS :=
  ⟨⟨solverOf fF, by simp⟩, ⟨solverOf fS, by simp⟩, fun s hs => by simp at hs; subst hs; exact solverOf_computes _ _,
    fun s hs => by simp at hs; subst hs; exact solverOf_computes _ _⟩

example (heap heap' : Ref → Vec) : ∃ ops ops' : List (Op ℝ[X]), ∃ w' v',
    runOp (cfg false true) (.apply (.user 0) 1) (runOps (cfg false true) ops (freshWorld heap)) = (.ok (), w') ∧
    runOp (cfg false true) (.apply (.user 2) 3) (runOps (cfg false true) ops' (freshWorld heap')) = (.ok (), v') ∧
    (runOps (cfg false true) ops (freshWorld heap)).heap (.user 0) = unitVec 2 ∧
    (runOps (cfg false true) ops' (freshWorld heap')).heap (.user 2) = unitVec 2 := by
  have h1 := C29_explicit_setup_partial (cfg_ok false true) (freshWorld_fresh heap) (freshWorld_noFail heap)
    [.write 0 (unitVec 2)] (.user 0) 1
  have h2 := C29_explicit_setup_partial (cfg_ok false true) (freshWorld_fresh heap') (freshWorld_noFail heap')
    [.setSolverFirst (solverOf scaleSol), .write 2 (unitVec 2)] (.user 2) 3
  have e1 := runOps_write (cfg false true) [.setupFE, .prepare, .setupSlab false] 0 (unitVec 2) (freshWorld heap)
  have e2 := runOps_write (cfg false true) [.setupFE, .prepare, .setupSlab false, .setSolverFirst (solverOf scaleSol)] 2
    (unitVec 2) (freshWorld heap')
  simp only [List.cons_append, List.nil_append] at e1 e2
  generalize ([.setupFE, .prepare, .setupSlab false, .write 0 (unitVec 2)] : List (Op ℝ[X])) = ops at h1 e1
  generalize ([.setupFE, .prepare, .setupSlab false, .setSolverFirst (solverOf scaleSol), .write 2 (unitVec 2)] :
    List (Op ℝ[X])) = ops' at h2 e2
  exact ⟨ops, ops', _, _, Prod.ext h1 rfl, Prod.ext h2 rfl, e1, e2⟩

/-- Solvers inverting the slab matrices exist, so the hypotheses of `C21_returned_matrices` can be met. -/
example : ∃ (fF fS : Vec → Vec) (A₁ A₂ P : Mat), (cfgSin discSin).ReturnsSlab A₁ A₂ ∧
    (cfgSin discSin).Returns true P ∧ LeftInverse (fun r => .ok (fF r)) A₁ ∧ LeftInverse (fun r => .ok (fS r)) A₂ := by
  obtain ⟨A₁, A₂, h⟩ := returnsSlab (cfgSin discSin)
  obtain ⟨⟨a, oa, a', ha, ea⟩, b, ob, b', hb, eb⟩ := id h
  obtain ⟨u1, u2⟩ := C78_solvers_exist cfgSin_ok modeSpace_psd modeSpace_definite discSin_positive rfl feSin_indep rfl
    cfgSin_first_observable (by norm_num [cfgSin, discSin]) ha hb _ _ ea eb
  choose fF hF using u1
  choose fS hS using u2
  exact ⟨fF, fS, A₁, A₂, _, h, returns _ _, fun v => ⟨_, rfl, fun e he => ((hF _).2 v (fun _ _ => rfl) e he).symm⟩,
    fun v => ⟨_, rfl, fun e he => ((hS _).2 v (fun _ _ => rfl) e he).symm⟩⟩

section
variable (heap heap' : Ref → Vec) (ops ops' : List (Op ℝ[X])) (h : SolversSet (cfg false true) ops scaleSol failSol)
  (h' : SolversSet (cfg false true) ops' scaleSol failSol)

example := C22_api (cfg_ok false true) rfl (freshWorld_fresh heap) (freshWorld_noFail heap) h (freshWorld_fresh heap')
  (freshWorld_noFail heap') h' (.user 0) .rhs 1 2
example := C23_api (cfg_ok false true) (freshWorld_fresh heap) (freshWorld_noFail heap) h (freshWorld_fresh heap')
  (freshWorld_noFail heap') h' .rhs 1 1 (by decide)
example := C24_api (cfg_ok false true) (freshWorld_fresh heap) (freshWorld_noFail heap) h (freshWorld_fresh heap')
  (freshWorld_noFail heap') h' (.user 0) (.user 1) 1 1
end

/-- Solvers can be set, and calls can fail. -/
example (heap : Ref → Vec) : ∃ ops, SolversSet (cfg false true) ops (fun _ => .error .solverError) scaleSol ∧
    (runOp (cfg false true) (.preImproved (.user 0) 1)
      (runOps (cfg false true) (.setupFE :: .prepare :: ops) (freshWorld heap))).1 = .error .solverError := by
  obtain ⟨ops, hs⟩ : ∃ ops, SolversSet (cfg false true) ops (fun _ => .error .solverError) scaleSol := ⟨_, scale_set _ _ _⟩
  refine ⟨ops, hs, ?_⟩
  have ready := documented_preReady (freshWorld_fresh heap) (freshWorld_noFail heap) hs
  obtain ⟨-, -, -, -, h⟩ := preImproved_run (cfg_ok false true) ready (user_pre 0) (user_pre 1) rfl
  change (preTimeMarchingImproved (cfg false true) (.user 0) (.user 1) _).1 = _
  rcases hr : preTimeMarchingImproved (cfg false true) (.user 0) (.user 1)
      (runOps (cfg false true) (.setupFE :: .prepare :: ops) (freshWorld heap)) with ⟨e | u, w'⟩
  · rw [hr] at h
    obtain ⟨n, -, h1, -⟩ := h
    rw [march_error_mono (n := 0) (e := .solverError) rfl (Nat.zero_le n)] at h1
    cases h1; rfl
  · rw [hr] at h
    obtain ⟨u, hu, -⟩ := h.1 0 (by decide)
    rw [march] at hu; cases hu

/-- A report after other calls. -/
example (heap : Ref → Vec) : ∃ r w',
    measuredErrors cfgM (.user 0) (runOps cfgM [.setupFE, .setInitial X 1, .errors .rhs, .prepare] (freshWorld heap))
      = (.ok r, w') ∧
    Report cfgM ((runOps cfgM [.setupFE, .setInitial X 1, .errors .rhs, .prepare] (freshWorld heap)).heap (.user 0)) r := by
  obtain ⟨ops, hops⟩ : ∃ ops : List (Op ℝ[X]), ops = [.setInitial X 1, .errors .rhs, .prepare] := ⟨_, rfl⟩
  rw [← hops]
  obtain ⟨r, w', h⟩ := C42_returns cfgM_meas polySpace_psd.mass (freshWorld_fresh heap) (freshWorld_noFail heap) ops (.user 0)
  exact ⟨r, w', h, C42_any_history cfgM_meas polySpace_psd.mass (freshWorld_fresh heap) _ _ h⟩

example (heap : Ref → Vec) : ∃ ts cells w',
    plotTables cfgM 5 20 (fun j => ev (j / 4)) (plotEntries abs) (.user 0) (runOps cfgM [.setupFE] (freshWorld heap))
      = (.ok (ts, cells), w') ∧ ts.length = 40 := by
  obtain ⟨⟨ts, cells⟩, w', h, -⟩ := C43_returns (C := cfgM) (disc_ok false false) (by norm_num [cfgM, cfg, disc])
    (nSpace := 5) (nSub := 20) (by norm_num) (fun j => ev (j / 4)) (plotEntries abs) (freshWorld_fresh heap)
    (freshWorld_noFail heap) [] (.user 0)
  exact ⟨ts, cells, w', h, (C43_any_history (C := cfgM) (disc_ok false false) (by norm_num [cfgM, cfg, disc]) (by norm_num)
    (fun j => ev (j / 4)) abs (freshWorld_fresh heap) [.setupFE] (.user 0) h).1⟩

/-- C80: a product overwrites its output with zero and leaves another vector alone. -/
example (heap : Ref → Vec) : ∃ w', runOp (cfg false true) (.apply (.user 0) 0)
      (runOps (cfg false true) [.setupFE, .prepare, .setupSlab false] (freshWorld heap)) = (.ok (), w') ∧
    w'.heap (.user 0) = 0 ∧ w'.heap (.user 1) = heap (.user 1) := by
  obtain ⟨ops, hops⟩ : ∃ ops : List (Op ℝ[X]), ops = [.setupFE, .prepare, .setupSlab false] := ⟨_, rfl⟩
  have hret := C29_explicit_setup_partial (cfg_ok false true) (freshWorld_fresh heap) (freshWorld_noFail heap) []
    (.user 0) 0
  rw [← hops] at hret ⊢
  refine ⟨_, Prod.ext hret rfl, C19_api_alias (cfg_ok false true) (by decide) (freshWorld_fresh heap) ops 0
    (Prod.ext hret rfl), ?_⟩
  rw [C80_only_output (k := 1) _ (by simp [Op.output]), C80_history ops (by rw [hops]; simp [Op.output])]
  rfl

end Example
end Dxss
