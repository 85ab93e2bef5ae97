import Verif.Props.Coarse
import Verif.Props.Solvable

/-!
# Property C77: the coarse space-time matrix
-/

namespace Dxss
open Finset
set_option linter.unusedSectionVars false
variable {V : Type} [AddCommGroup V] [Module ℝ V] {C : Cfg V} {K : CoarseMesh V}

/-- `A` is the matrix of the symmetric space-time variational form on the coarse mesh: integrals of the
coarse mesh, the indicator function interpolated to the coarse mesh, the time discretisation and the
stabilisation parameters of the fine problem. -/
def CoarseMesh.Discretises (K : CoarseMesh V) (D : Disc V) (A : Mat) : Prop :=
  A.size = K.full.size ∧ ∀ x y : Vec, ∑ d ∈ range A.size, A.mult x d * y d
    = Spec.form K.S D (K.indOf D.ind) false (K.full.field K.fe x) (K.full.field K.fe y)
      + 1e-20 * K.S.mass (K.full.field K.fe x 0 0) (K.full.field K.fe y 2 0)

theorem coarseMatOf_discretises (hC : C.Ok) (hK : K.Ok C) : K.Discretises C.D (coarseMatOf C K) := by
  refine ⟨rfl, fun x y => ?_⟩
  have h := assemble_pair K.S (K.indOf C.D.ind) (C.D.stForm false) K.fe K.full hK.full x y
  rw [C12_form_is_variational K.S C.D hC.disc] at h
  exact h

/-- A matrix is determined by the form it discretises. -/
theorem CoarseMesh.Discretises.unique {D : Disc V} {A B : Mat} (hA : K.Discretises D A) (hB : K.Discretises D B) :
    ∀ d < K.full.size, ∀ d' < K.full.size, A.a d d' = B.a d d' := by
  intro d hd d' hd'
  have h1 := hA.2 (unitVec d') (unitVec d)
  have h2 := hB.2 (unitVec d') (unitVec d)
  rw [← h2, hA.1, hB.1] at h1
  have key : ∀ M : Mat, M.size = K.full.size →
      ∑ e ∈ range K.full.size, M.mult (unitVec d') e * unitVec d e = M.a d d' := by
    intro M hM
    rw [sum_eq_single d (fun e _ he => by simp [unitVec, he]) (fun h => absurd (mem_range.2 hd) h)]
    simp only [Mat.mult, hM]
    rw [sum_eq_single d' (fun e _ he => by simp [unitVec, he]) (fun h => absurd (mem_range.2 hd') h)]
    simp [unitVec]
  rw [key A hA.1, key B hB.1] at h1
  exact h1

/-! ## Which matrix the object holds -/

/-- Calls of `prepare_coarse_grid_correction`. -/
def Op.PreparesCoarse : Op V → Prop
  | .prepareCoarse _ => True
  | _ => False

theorem frame_coarseMat (op : Op V) (h : ¬ op.PreparesCoarse) :
    Pres (Rel.frame fun o => o.coarseMat) (runOp C op) := by
  op_frame_tac op h

/-- `prepare_coarse_grid_correction` leaves the stored matrix as it was or replaces it. -/
theorem prepareCoarse_coarseMat (w : World V) :
    ((prepareCoarse C K w).1 = .ok () → (prepareCoarse C K w).2.obj.coarseMat = some (coarseMatOf C K)) ∧
    ((prepareCoarse C K w).2.obj.coarseMat = w.obj.coarseMat ∨
      (prepareCoarse C K w).2.obj.coarseMat = some (coarseMatOf C K)) := by
  obtain ⟨o, hp, s, c⟩ := w
  rcases hd : o.dofmaps with _ | d <;> rcases hl : o.lfi with _ | l <;>
    rcases h0 : s c with _ | _ <;> rcases h1 : s (c + 1) with _ | _ <;> rcases h2 : s (c + 2) with _ | _ <;>
    rcases h3 : s (c + 3) with _ | _ <;>
  simp [prepareCoarse, M.bind_run, ext, M.attr, hd, hl, h0, h1, h2, h3, modObj, setVec, M.modify, M.forList, add_assoc]

/-- C77: after any calls on a fresh object, a coarse matrix that is present belongs to a mesh passed to
`prepare_coarse_grid_correction` and is the matrix of the variational form on that mesh. -/
theorem C77_any_history (hC : C.Ok) {w₀ : World V} (h₀ : w₀.Fresh) (ops : List (Op V))
    (hK : ∀ K, .prepareCoarse K ∈ ops → K.Ok C) {A : Mat} {w₁ : World V}
    (h : getSpacetimeMatrixCoarse (runOps C ops w₀) = (.ok (some A), w₁)) :
    ∃ K, .prepareCoarse K ∈ ops ∧ K.Discretises C.D A := by
  have hA : (runOps C ops w₀).obj.coarseMat = some A := Except.ok.inj (congrArg Prod.fst h)
  clear h
  have key : ∀ w : World V, (runOps C ops w).obj.coarseMat = some A →
      w.obj.coarseMat = some A ∨ ∃ K, .prepareCoarse K ∈ ops ∧ A = coarseMatOf C K := by
    clear hK hA
    induction ops with
    | nil => exact fun w h => .inl h
    | cons op ops ih =>
      intro w h
      rcases ih _ h with h' | ⟨K, hK, e⟩
      · by_cases hop : ∃ K, op = .prepareCoarse K
        · obtain ⟨K, rfl⟩ := hop
          rcases (prepareCoarse_coarseMat (C := C) (K := K) w).2 with e | e
          · exact .inl (e.symm.trans h')
          · exact .inr ⟨K, by simp, (Option.some.inj (e.symm.trans h')).symm⟩
        · exact .inl ((frame_coarseMat op
            (fun e => hop (by cases op <;> first | exact ⟨_, rfl⟩ | exact e.elim)) w).symm.trans h')
      · exact .inr ⟨K, by simp [hK], e⟩
  rcases key w₀ hA with e | ⟨K, hm, rfl⟩
  · rw [h₀] at e; cases e
  · exact ⟨K, hm, coarseMatOf_discretises hC (hK K hm)⟩

/-- C77: once `prepare_coarse_grid_correction(msh)` has returned, whatever happened before, and
whatever other calls follow, `get_spacetime_matrix_coarse()` returns the matrix for `msh`. -/
theorem C77_last_mesh (hC : C.Ok) (hK : K.Ok C) (w w' : World V) (h : prepareCoarse C K w = (.ok (), w'))
    (ops : List (Op V)) (hops : ∀ op ∈ ops, ¬ op.PreparesCoarse) :
    ∃ A w₁, getSpacetimeMatrixCoarse (runOps C ops w') = (.ok (some A), w₁) ∧ K.Discretises C.D A := by
  have h1 := (prepareCoarse_coarseMat (C := C) (K := K) w).1 (by rw [h])
  rw [h] at h1
  refine ⟨coarseMatOf C K, runOps C ops w', ?_, coarseMatOf_discretises hC hK⟩
  have := frame_ops (C := C) (p := fun o => o.coarseMat) frame_coarseMat hops w'
  unfold getSpacetimeMatrixCoarse
  rw [this, h1]

/-- C77: in the well-posed configuration every linear system with the coarse matrix has exactly one
solution. -/
theorem C77_uniquely_solvable (hC : C.Ok) (hK : K.Ok C) (hS : K.S.Psd (K.indOf C.D.ind)) (hd : K.S.Definite)
    (hp : C.D.Positive) (hwp : C.D.wellPosed = true) (hi : K.fe.Indep) (w w' : World V)
    (h : prepareCoarse C K w = (.ok (), w')) {A : Mat} {w₁ : World V}
    (hA : getSpacetimeMatrixCoarse w' = (.ok (some A), w₁)) : A.UniquelySolvable := by
  have h1 := (prepareCoarse_coarseMat (C := C) (K := K) w).1 (by rw [h])
  rw [h] at h1
  have h2 : w'.obj.coarseMat = some A := Except.ok.inj (congrArg Prod.fst hA)
  rw [h1] at h2
  rw [← Option.some.inj h2]
  exact Mat.uniquelySolvable_of_kernel (stForm_kernel hC.disc hS hd hp hwp hi hK.full hK.fullN)

/-! ## Non-vacuity -/

namespace Example
open Polynomial

/-- A coarse space for the well-posed two-slab example. -/
noncomputable def coarseWp : CoarseMesh ℝ[X] := { coarse with
  fe := fe, full := stdSpace (fullSizes 1 1 2) fe.m }

theorem coarseWp_ok : coarseWp.Ok (cfg false true) := ⟨stdSpace_ok _ _, rfl⟩

theorem prepareCoarse_ok (C : Cfg ℝ[X]) (K : CoarseMesh ℝ[X]) (heap : Ref → Vec) : ∃ w',
    prepareCoarse C K (runOps C [.setupFE, .prepare] (freshWorld heap)) = (.ok (), w') := by
  have k := keep_reach (C := C) (Inv.of_fresh (freshWorld_fresh heap)) [.setupFE, .prepare]
  have h := prepareCoarse_prepared (K := K) (documented (C := C) (freshWorld_fresh heap) (freshWorld_noFail heap))
    (NoFail.of_keep (freshWorld_noFail heap) k)
  exact ⟨_, Prod.ext h.1 rfl⟩

/-- C77 applies to the two-level example; other calls in between, some of them failing, do no harm. -/
example (heap : Ref → Vec) : ∃ w' A w₁,
    prepareCoarse cfgMono coarse (runOps cfgMono [.setupFE, .prepare] (freshWorld heap)) = (.ok (), w') ∧
    getSpacetimeMatrixCoarse (runOps cfgMono [.getMatrix true, .preTwolvl .rhs 0, .prepare] w')
      = (.ok (some A), w₁) ∧ coarse.Discretises cfgMono.D A := by
  obtain ⟨w', h⟩ := prepareCoarse_ok cfgMono coarse heap
  obtain ⟨A, w₁, h1, h2⟩ := C77_last_mesh cfgMono_ok coarse_ok _ w' h [.getMatrix true, .preTwolvl .rhs 0, .prepare]
    (by simp [Op.PreparesCoarse])
  exact ⟨w', A, w₁, h, h1, h2⟩

example (heap : Ref → Vec) : ∃ A w₁, getSpacetimeMatrixCoarse (coarseWorld heap) = (.ok (some A), w₁) ∧
    ∃ K : CoarseMesh ℝ[X], K.Discretises cfgMono.D A := by
  obtain ⟨w', h⟩ := prepareCoarse_ok cfgMono coarse heap
  obtain ⟨A, w₁, h1, -⟩ := C77_last_mesh cfgMono_ok coarse_ok _ w' h
    [.setSolverCoarse (solverOf (scaleLocal coarse.full.size)), .setSolverFirst (solverOf scaleSol),
      .setSolverSlab (solverOf scaleSol)] (by simp [Op.PreparesCoarse])
  have e : runOps cfgMono [.setSolverCoarse (solverOf (scaleLocal coarse.full.size)),
      .setSolverFirst (solverOf scaleSol), .setSolverSlab (solverOf scaleSol)] w' = coarseWorld heap := by
    have : w' = (prepareCoarse cfgMono coarse (runOps cfgMono [.setupFE, .prepare] (freshWorld heap))).2 := by rw [h]
    rw [this]; rfl
  rw [e] at h1
  obtain ⟨K, -, hA⟩ := C77_any_history cfgMono_ok (freshWorld_fresh heap) _ (by
    intro K hK
    simp only [List.mem_cons, reduceCtorEq, false_or, Op.prepareCoarse.injEq, List.not_mem_nil, or_false] at hK
    rw [hK]; exact coarse_ok) h1
  exact ⟨A, w₁, h1, K, hA⟩

/-- The coarse system of the well-posed example has exactly one solution. -/
example (heap : Ref → Vec) : ∃ w' A w₁,
    prepareCoarse (cfg false true) coarseWp (runOps (cfg false true) [.setupFE, .prepare] (freshWorld heap))
      = (.ok (), w') ∧ getSpacetimeMatrixCoarse w' = (.ok (some A), w₁) ∧ A.UniquelySolvable := by
  obtain ⟨w', h⟩ := prepareCoarse_ok (cfg false true) coarseWp heap
  obtain ⟨A, w₁, h1, -⟩ := C77_last_mesh (cfg_ok false true) coarseWp_ok _ w' h [] (by simp)
  exact ⟨w', A, w₁, h, h1, C77_uniquely_solvable (cfg_ok false true) coarseWp_ok polySpace_psd polySpace_definite
    (disc_positive false true) rfl fe_indep _ w' h h1⟩

end Example
end Dxss
