import Verif.Props.Observe
import Verif.Props.Setup
import Verif.Props.Drivers

/-!
# Property C78: the preconditioner, stated through the public interface

`get_slab_matrix_first_slab()` and `get_slab_matrix()` hand out the matrices for which the user prepares the two
slab solvers; `pre_time_marching_improved` then solves with the matrix that `get_spacetime_matrix(precond=True)`
hands out.
-/

namespace Dxss
open Finset
set_option linter.unusedSectionVars false
variable {V : Type} [AddCommGroup V] [Module ℝ V] {C : Cfg V}

/-- `get_slab_matrix_first_slab()` returns the cached first-slab matrix. -/
theorem getSlabMatrixFirst_eq {w₀ : World V} (h₀ : w₀.Fresh) (ops : List (Op V)) {A : Mat} {w₁ : World V}
    (h : getSlabMatrixFirst (runOps C ops w₀) = (.ok (some A), w₁)) : A = slabMatOf C C.D.wellPosed :=
  (inv_reach (C := C) h₀ ops).firstMat A (Except.ok.inj (congrArg Prod.fst h))

/-- After the documented calls the improved preconditioner has everything it needs. -/
theorem documented_preReady {w₀ : World V} (h₀ : w₀.Fresh) (hf : w₀.NoFail) {ops : List (Op V)} {fF fS : Vec → Py Vec}
    (hs : SolversSet C ops fF fS) : PreReady C (runOps C (.setupFE :: .prepare :: ops) w₀).obj fF fS := by
  have e : runOps C (.setupFE :: .prepare :: ops) w₀ = runOps C ops (runOps C [.setupFE, .prepare] w₀) := rfl
  have i := inv_reach (C := C) h₀ [.setupFE, .prepare]
  have ho := documented (C := C) h₀ hf
  have k := keep_reach i ops
  rw [e]
  exact ⟨solReady_after i (by rw [ho]; rfl) (by rw [ho]; rfl) (by rw [ho]; rfl) hs, k.bRhsPre _ (by rw [ho]; rfl),
      k.bndVecs _ (by rw [ho]; rfl), k.bndMat _ (by rw [ho]; rfl)⟩

/-- C78: both slab matrices are available after the documented calls, whatever else was called. -/
theorem C78_matrices_available {w₀ : World V} (h₀ : w₀.Fresh) (hf : w₀.NoFail) (ops : List (Op V)) :
    ∃ A₁ A₂ w₁ w₂, getSlabMatrixFirst (runOps C (.setupFE :: .prepare :: ops) w₀) = (.ok (some A₁), w₁) ∧
      getSlabMatrix C (runOps C (.setupFE :: .prepare :: ops) w₀) = (.ok (some A₂), w₂) ∧
      A₁.size = C.slab.size ∧ A₂.size = C.slab.size := by
  have i := inv_reach (C := C) h₀ [.setupFE, .prepare]
  have ho := documented (C := C) h₀ hf
  have k := keep_reach i ops
  have e1 : (runOps C (.setupFE :: .prepare :: ops) w₀).obj.firstMat = some (slabMatOf C C.D.wellPosed) :=
    k.firstMat _ (by rw [ho]; rfl)
  have e2 : (runOps C (.setupFE :: .prepare :: ops) w₀).obj.slabMat = some (slabMatOf C true) :=
    k.slabMat _ (by rw [ho]; rfl)
  refine ⟨slabMatOf C C.D.wellPosed, slabMatOf C true, _, runOps C (.setupFE :: .prepare :: ops) w₀,
    by rw [getSlabMatrixFirst, e1], ?_, rfl, rfl⟩
  unfold getSlabMatrix
  rw [M.bind_ok (M.get_run _)]
  simp only [e2, Option.isNone_some, Bool.false_eq_true, if_false]
  rw [M.bind_ok (M.get_run _), e2]
  rfl

/-- C78: let `A₁` and `A₂` be what `get_slab_matrix_first_slab()` and `get_slab_matrix()` returned at any time, and
let the user's two solvers solve systems with `A₁` and `A₂`.  After the documented calls and any others,
`pre_time_marching_improved(b, x)` leaves in `x`, if it returns, a solution of the system with the matrix returned by
`get_spacetime_matrix(precond=True)` and right-hand side `b`, up to the `1e-20` entries of the slab matrices. -/
theorem C78_preconditioner_solves (hC : C.Ok) (hN : 1 ≤ C.D.N) (hfw : C.D.jumpsFw = false)
    {w₀ w₀' w₀'' v₀ : World V} (h₀ : w₀.Fresh) (hf : w₀.NoFail) (h₀' : w₀'.Fresh) (h₀'' : w₀''.Fresh) (g₀ : v₀.Fresh)
    (ops ops₁ ops₂ opsP : List (Op V)) {A₁ A₂ P : Mat} {w₁ w₂ v₁ : World V}
    (hA₁ : getSlabMatrixFirst (runOps C ops₁ w₀') = (.ok (some A₁), w₁))
    (hA₂ : getSlabMatrix C (runOps C ops₂ w₀'') = (.ok (some A₂), w₂))
    {fF fS : Vec → Py Vec} (hs : SolversSet C ops fF fS) (hF : Solves fF A₁) (hS : Solves fS A₂)
    (hopsP : ∀ op ∈ opsP, ¬ op.OtherFlag true)
    (hP : getSpacetimeMatrix C true (runOps C opsP v₀) = (.ok P, v₁)) (b : InVec) (x : ℕ)
    (hret : (runOp C (.preImproved b x) (runOps C (.setupFE :: .prepare :: ops) w₀)).1 = .ok ()) :
    let w := runOps C (.setupFE :: .prepare :: ops) w₀
    let y := (runOp C (.preImproved b x) w).2.heap (.user x)
    P.size = C.full.size ∧ ∀ d < P.size, P.mult y d + (∑ n ∈ range C.D.N, if n = 0 then 0 else 1e-20 * C.S.mass
          (C.full.field C.fe y 0 (n * (C.D.q + 1))) (C.full.field C.fe (unitVec d) 2 (n * (C.D.qstar + 1))))
      = w.heap b.ref d := by
  intro w y
  rw [getSlabMatrixFirst_eq h₀' ops₁ hA₁] at hF
  rw [getSlabMatrix_eq h₀'' ops₂ hA₂] at hS
  have eP := (C32_same_flag_partial g₀ true opsP hopsP).1 P v₁ hP
  have hb : b.ref ∉ preScratch := by cases b <;> simp [InVec.ref, preScratch]
  rw [eP]
  refine ⟨rfl, fun d hd => ?_⟩
  exact C20_time_marching_solves hC hN hfw w (documented_preReady h₀ hf hs) hF hS b.ref (.user x) hb
    (by simp [preScratch]) _ (Prod.ext hret rfl) d hd

/-! ### Without initial values -/

/-- The first time slab on its own. -/
def Cfg.firstSlab (C : Cfg V) : Cfg V := { C with D := { C.D with N := 1 }, full := C.slab }

theorem slabForm_first (S : Space V) (D : Disc V) (ind : V) (hwp : D.wellPosed = false) (U W : Field V) :
    evalForm S ind (D.slabForm false) U W = evalForm S ind (({ D with N := 1 } : Disc V).stForm false) U W := by
  have e1 : ∀ U : Field V, Field.slab D 0 U = U := by
    intro U; funext c i; simp [Field.slab]
  have key := evalForm_slab_noJumps S D ind U W 0
  rw [e1, e1] at key
  rw [key, stForm_decompose]
  simp [Disc.stInitial, Disc.stDualJump, Disc.stFwJump, Disc.stJump, hwp, slabPlaceholder]
  simp only [Disc.core, Disc.stWave, Disc.stData, Disc.stAdj, Disc.stDual, Disc.stPrimal]

theorem Cfg.Ok.firstSlab (hC : C.Ok) : C.firstSlab.Ok :=
  ⟨⟨hC.disc.elmat, hC.disc.dt_ne⟩, hC.slab, by rw [Cfg.firstSlab, hC.slabN]; simp [slabSizes, fullSizes],
    hC.slab, hC.slabN, hC.coup, hC.coupN, hC.bnd, hC.bndN⟩

/-- Without initial values, the first-slab matrix is non-singular if the data observe the states on the first slab. -/
theorem firstSlab_kernel (hC : C.Ok) (hS : C.S.Psd C.D.ind) (hd : C.S.Definite) (hp : C.D.Positive) (hi : C.fe.Indep)
    (hwp : C.D.wellPosed = false) {K : ℝ} (ho : C.firstSlab.Observable K)
    (hK : K * ((1e-20) ^ 2 * (C.D.qstar + 1) ^ 2) < C.D.gDual * C.D.dt) : (slabMatOf C false).TrivialKernel := by
  have hpos : C.firstSlab.D.Positive := ⟨hp.dt, hp.lam, hp.data, hp.dual, hp.primal, hp.jump, hp.dominates⟩
  have hok := hC.firstSlab
  have hk := observable_kernel hok hS hd hpos hi ho hK
  intro x hx
  refine hk x fun d hd => ?_
  have := hx d hd
  rw [slabMatOf, assemble_mult _ _ _ _ _ hC.slab _ hd, slabForm_first _ _ _ hwp] at this
  rw [stMatOf, assemble_mult _ _ _ _ _ hok.full _ hd]
  exact this

/-- C78, existence of the solvers: without initial values and forward jumps, if the data observe the states on the
first slab, exact slab solvers exist and never raise. -/
theorem C78_solvers_exist (hC : C.Ok) (hS : C.S.Psd C.D.ind) (hd : C.S.Definite) (hp : C.D.Positive)
    (hfw : C.D.jumpsFw = false) (hi : C.fe.Indep) (hwp : C.D.wellPosed = false) {K : ℝ} (ho : C.firstSlab.Observable K)
    (hK : K * ((1e-20) ^ 2 * (C.D.qstar + 1) ^ 2) < C.D.gDual * C.D.dt) {w₀ w₀' : World V} (h₀ : w₀.Fresh)
    (h₀' : w₀'.Fresh) (ops₁ ops₂ : List (Op V)) {A₁ A₂ : Mat} {w₁ w₂ : World V}
    (hA₁ : getSlabMatrixFirst (runOps C ops₁ w₀) = (.ok (some A₁), w₁))
    (hA₂ : getSlabMatrix C (runOps C ops₂ w₀') = (.ok (some A₂), w₂)) :
    A₁.UniquelySolvable ∧ A₂.UniquelySolvable := by
  rw [getSlabMatrixFirst_eq h₀ ops₁ hA₁, getSlabMatrix_eq h₀' ops₂ hA₂, hwp]
  exact ⟨Mat.uniquelySolvable_of_kernel (firstSlab_kernel hC hS hd hp hi hwp ho hK),
    Mat.uniquelySolvable_of_kernel (slabForm_kernel hC.disc hS hd hp hfw hi hC.slab hC.slabN)⟩

/-- C78, the matrix of the preconditioner: under the same conditions `get_spacetime_matrix(precond=True)` is
non-singular (C62 is the case with initial values). -/
theorem C78_one_sided_unique_solution (hC : C.Ok) (hS : C.S.Psd C.D.ind) (hd : C.S.Definite) (hp : C.D.Positive)
    (hfw : C.D.jumpsFw = false) (hi : C.fe.Indep) (hwp : C.D.wellPosed = false) {K : ℝ} (ho : C.firstSlab.Observable K)
    (hK : K * ((1e-20) ^ 2 * (C.D.qstar + 1) ^ 2) < C.D.gDual * C.D.dt) {w₀ : World V} (h₀ : w₀.Fresh)
    (ops : List (Op V)) (hops : ∀ op ∈ ops, ¬ op.OtherFlag true) {P : Mat} {w₁ : World V}
    (h : getSpacetimeMatrix C true (runOps C ops w₀) = (.ok P, w₁)) : P.size = C.full.size ∧ P.UniquelySolvable := by
  rw [(C32_same_flag_partial h₀ true ops hops).1 P w₁ h]
  exact ⟨rfl, Mat.uniquelySolvable_of_kernel (oneSided_kernel_of_first hC hS hd hp
    (by rw [hwp]; exact firstSlab_kernel hC hS hd hp hi hwp ho hK) hfw hi)⟩

/-! ## Non-vacuity -/

namespace Example

theorem cfgSin_first_observable : (cfgSin discSin).firstSlab.Observable (1e-4 * ((1 + 1) ^ 2 / (1 / 2))) := by
  have := C68_full_data_observe (C := (cfgSin discSin).firstSlab) cfgSin_ok.firstSlab modeSpace_psd modeSpace_definite
    (by constructor <;> norm_num [Cfg.firstSlab, cfgSin, discSin]) (by norm_num) (c := 1e-4) cfgSin_determined
    (by norm_num [Cfg.firstSlab])
  simpa [Cfg.firstSlab, cfgSin, discSin] using this

/-- Exact solvers for the two slab matrices handed out by an object. -/
theorem cfgSin_solvers (heap : Ref → Vec) : ∃ A₁ A₂ w₁ w₂ P v₁, ∃ fF fS : Vec → Vec,
    getSlabMatrixFirst (runOps (cfgSin discSin) [.setupFE, .prepare] (freshWorld heap)) = (.ok (some A₁), w₁) ∧
    getSlabMatrix (cfgSin discSin) (runOps (cfgSin discSin) [.setupFE, .prepare] (freshWorld heap)) = (.ok (some A₂), w₂) ∧
    getSpacetimeMatrix (cfgSin discSin) true (runOps (cfgSin discSin) [.setupFE] (freshWorld heap)) = (.ok P, v₁) ∧
    Solves (fun r => .ok (fF r)) A₁ ∧ Solves (fun r => .ok (fS r)) A₂ := by
  obtain ⟨A₁, A₂, w₁, w₂, h1, h2, -, -⟩ := C78_matrices_available (C := cfgSin discSin) (freshWorld_fresh heap)
    (freshWorld_noFail heap) []
  obtain ⟨v₁, hP⟩ := getMatrix_ok (cfgSin discSin) true heap
  obtain ⟨u1, u2⟩ := C78_solvers_exist cfgSin_ok modeSpace_psd modeSpace_definite discSin_positive rfl feSin_indep rfl
    cfgSin_first_observable (by norm_num [cfgSin, discSin]) (freshWorld_fresh heap) (freshWorld_fresh heap) _ _ h1 h2
  choose fF hF using u1
  choose fS hS using u2
  exact ⟨A₁, A₂, w₁, w₂, _, v₁, fF, fS, h1, h2, hP, fun r u h e he => by cases h; exact (hF r).1 e he,
    fun r u h e he => by cases h; exact (hS r).1 e he⟩

theorem sinSolvers_set (fF fS : Vec → Vec) : SolversSet (cfgSin discSin)
    [.setSolverFirst (solverOf fun r => .ok (fF r)), .setSolverSlab (solverOf fun r => .ok (fS r))]
    (fun r => .ok (fF r)) (fun r => .ok (fS r)) :=
  ⟨⟨solverOf fun r => .ok (fF r), by simp⟩, ⟨solverOf fun r => .ok (fS r), by simp⟩, fun s hs => by simp at hs; subst hs; exact solverOf_computes _ _,
    fun s hs => by simp at hs; subst hs; exact solverOf_computes _ _⟩

/-- C78 applies, and the preconditioner does return. -/
example (heap : Ref → Vec) : ∃ (ops : List (Op V3)) (P : Mat) (w' : World V3),
    runOp (cfgSin discSin) (.preImproved (.user 0) 1)
      (runOps (cfgSin discSin) (.setupFE :: .prepare :: ops) (freshWorld heap)) = (.ok (), w') ∧
    P.size = 32 ∧ ∀ d < P.size, P.mult (w'.heap (.user 1)) d
        + (∑ n ∈ range (cfgSin discSin).D.N, if n = 0 then 0 else 1e-20 * modeSpace.mass
          ((cfgSin discSin).full.field feSin (w'.heap (.user 1)) 0 (n * ((cfgSin discSin).D.q + 1)))
          ((cfgSin discSin).full.field feSin (unitVec d) 2 (n * ((cfgSin discSin).D.qstar + 1))))
      = (runOps (cfgSin discSin) (.setupFE :: .prepare :: ops) (freshWorld heap)).heap (.user 0) d := by
  obtain ⟨A₁, A₂, w₁, w₂, P, v₁, fF, fS, h1, h2, hP, hF, hS⟩ := cfgSin_solvers heap
  obtain ⟨ops, hs⟩ : ∃ ops, SolversSet (cfgSin discSin) ops (fun r => .ok (fF r)) (fun r => .ok (fS r)) :=
    ⟨_, sinSolvers_set fF fS⟩
  have hret : (runOp (cfgSin discSin) (.preImproved (.user 0) 1)
      (runOps (cfgSin discSin) (.setupFE :: .prepare :: ops) (freshWorld heap))).1 = .ok () := by
    rcases (C27_documented_sequence cfgSin_ok rfl rfl (freshWorld_fresh heap) (freshWorld_noFail heap) _ hs (.user 0) 1).2.1
      with h | ⟨e, r, -, h | h⟩
    · exact h
    · exact absurd h (by simp)
    · exact absurd h (by simp)
  have key := C78_preconditioner_solves cfgSin_ok (by norm_num [cfgSin, discSin]) rfl (freshWorld_fresh heap)
    (freshWorld_noFail heap) (freshWorld_fresh heap) (freshWorld_fresh heap) (freshWorld_fresh heap) _ _ _ [.setupFE]
    h1 h2 hs hF hS (by simp [Op.OtherFlag]) hP (.user 0) 1 hret
  exact ⟨ops, P, _, Prod.ext hret rfl, key.1.trans rfl, key.2⟩

end Example
end Dxss
