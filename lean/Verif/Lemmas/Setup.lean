import Verif.Lemmas.Frame
import Verif.Lemmas.Precond

/-! # Exact effect of preparation -/

namespace Dxss
set_option linter.unusedSectionVars false
variable {V : Type} [AddCommGroup V] [Module ℝ V] {C : Cfg V}

/-- The object after `setup_spacetime_finite_elements`, with initial data `u`, `v`. -/
def setUpObj (C : Cfg V) (u v : V) : Obj V := { dofmaps := some (mkDofmaps C), u10 := some u, u20 := some v }

/-- The object after a successful preparation. -/
noncomputable def preparedObj (C : Cfg V) (u v : V) : Obj V where
  dofmaps := some (mkDofmaps C)
  u10 := some u
  u20 := some v
  slabBfi := some (C.D.slabForm true)
  slabMat := some (slabMatOf C true)
  slabBfiNJ := if C.D.wellPosed then none else some (C.D.slabForm false)
  slabMatNJ := if C.D.wellPosed then none else some (slabMatOf C false)
  slabVecs := if C.D.wellPosed then none else some ()
  firstBfi := some (C.D.slabForm C.D.wellPosed)
  firstMat := some (slabMatOf C C.D.wellPosed)
  coupMat := some (coupMatOf C)
  coupVecs := some ()
  bndMat := some (bndMatOf C)
  bndVecs := some ()
  lfi := some (C.D.rhsForm C.S C.pts C.ws u v)
  rhs := some ()
  bRhsPre := some ()

theorem setupFE_fresh {w : World V} (h : w.Fresh) (hs : w.NoFail) :
    (setupFE C w).1 = .ok () ∧ (setupFE C w).2.obj = setUpObj C 0 0 := by
  obtain ⟨o, hp, s, c⟩ := w
  simp only [World.Fresh] at h
  subst h
  have : s c = false := hs c le_rfl
  simp [setupFE, M.bind_run, ext, this, modObj, setVec, M.modify, setUpObj]

theorem prepare_setUp {w : World V} {u v : V} (h : w.obj = setUpObj C u v) (hs : w.NoFail) :
    (prepareGmres C w).1 = .ok () ∧ (prepareGmres C w).2.obj = preparedObj C u v := by
  obtain ⟨o, hp, s, c⟩ := w
  simp only at h
  subst h
  have h' : ∀ k, s (c + k) = false := fun k => hs _ (Nat.le_add_right _ _)
  have h0 : s c = false := h' 0
  cases hwp : C.D.wellPosed <;>
  simp [prepareGmres, setupSlabMatrix, setupCoupling, setupRhs, setupScaledMass, M.bind_run, ext, h', h0, setUpObj,
    hwp, M.attr, M.get, modObj, setVec, M.modify, add_assoc, preparedObj]

/-- `NoFail` persists. -/
theorem NoFail.of_keep {b : Bool} {w w' : World V} (h : w.NoFail) (k : Keep b w w') : w'.NoFail := fun j hj => by
  rw [k.sched]; exact h j (k.clock.trans hj)

/-- The object after the documented set-up. -/
theorem documented {w₀ : World V} (h : w₀.Fresh) (hs : w₀.NoFail) :
    (runOps C [.setupFE, .prepare] w₀).obj = preparedObj C 0 0 := by
  have k := (hist_op (C := C) (b := false) .setupFE (fun h => by cases h) w₀ (Inv.of_fresh h)).2
  exact (prepare_setUp (setupFE_fresh h hs).2 (NoFail.of_keep hs k)).2

theorem map_get_run {σ α : Type} (f : σ → α) (s : σ) : (f <$> (M.get : M σ σ)) s = (.ok (f s), s) := rfl

theorem early_slab_run {w : World V} {u v : V} (h : w.obj = setUpObj C u v) (hs : w.NoFail) :
    ∃ w₁ w₂, getSlabMatrix C w = (.ok (some (slabMatOf C true)), w₁) ∧ prepareGmres C w₁ = (.ok (), w₂) ∧
      w₂.obj = { preparedObj C u v with
        bRhsPre := none
        slabBfiNJ := some (C.D.slabForm false)
        slabMatNJ := some (slabMatOf C false)
        slabVecs := some () } := by
  obtain ⟨o, hp, s, c⟩ := w
  simp only at h
  subst h
  have h' : ∀ k, s (c + k) = false := fun k => hs _ (Nat.le_add_right _ _)
  have h0 : s c = false := h' 0
  refine ⟨_, _, Prod.ext ?_ rfl, Prod.ext ?_ rfl, ?_⟩ <;> cases hwp : C.D.wellPosed <;>
  simp [map_get_run, getSlabMatrix, prepareGmres, setupSlabMatrix, setupCoupling, setupRhs, setupScaledMass, M.bind_run, ext,
    h', h0, setUpObj, hwp, M.attr, M.get, modObj, setVec, M.modify, add_assoc, preparedObj]

/-- The object when the slab matrix was requested before preparation. -/
theorem early_slab_matrix {w₀ : World V} (h : w₀.Fresh) (hs : w₀.NoFail) :
    (runOps C [.setupFE, .getSlabMatrix, .prepare] w₀).obj = { preparedObj C 0 0 with
      bRhsPre := none
      slabBfiNJ := some (C.D.slabForm false)
      slabMatNJ := some (slabMatOf C false)
      slabVecs := some () } := by
  have k := (hist_op (C := C) (b := false) .setupFE (fun h => by cases h) w₀ (Inv.of_fresh h)).2
  obtain ⟨w₁, w₂, e1, e2, e3⟩ := early_slab_run (setupFE_fresh (C := C) h hs).2 (NoFail.of_keep hs k)
  have hv : ((getSlabMatrix C).void (setupFE C w₀).2).2 = w₁ := by
    unfold M.void; rw [M.bind_ok e1]; rfl
  change (prepareGmres C ((getSlabMatrix C).void (setupFE C w₀).2).2).2.obj = _
  rw [hv, e2]
  exact e3

/-- Once the slab matrix exists without the work vector of the preconditioner, no call ever allocates
that vector. -/
theorem stuck {w : World V} (i : Inv C w) (h1 : w.obj.slabMat ≠ none) (h2 : w.obj.bRhsPre = none)
    (ops : List (Op V)) : (runOps C ops w).obj.bRhsPre = none := by
  induction ops generalizing w with
  | nil => exact h2
  | cons op ops ih =>
    obtain ⟨i1, k1⟩ := hist_op (b := false) op (fun h => by cases h) w i
    obtain ⟨A, hA⟩ := Option.ne_none_iff_exists'.1 h1
    refine ih i1 (by rw [k1.slabMat _ hA]; simp) ?_
    by_cases hop : op.AllocatesRhsPre
    · have : op = .prepare := by cases op <;> first | rfl | exact hop.elim
      subst this
      have hp : Pres (Rel.frame fun o : Obj V => o.bRhsPre) (do
          let w ← M.get
          if w.obj.firstMat.isNone && !C.D.wellPosed then
            setupSlabMatrix C false
          let w ← M.get
          if w.obj.coupMat.isNone then setupCoupling C
          let w ← M.get
          if w.obj.rhs.isNone then setupRhs C
          let w ← M.get
          if w.obj.bndMat.isNone then setupScaledMass C : WM V Unit) := by
        have f1 := frame_bRhsPre (C := C) (.setupSlab false) id
        have f2 := frame_bRhsPre (C := C) .setupCoupling id
        have f3 := frame_bRhsPre (C := C) .setupRhs id
        have f4 := frame_bRhsPre (C := C) .setupScaledMass id
        have k4 : Pres (Rel.frame fun o : Obj V => o.bRhsPre) (do
            let w ← M.get
            if w.obj.bndMat.isNone then setupScaledMass C : WM V Unit) := .bind .get fun _ => .ite f4 (.pure _)
        have k3 : Pres (Rel.frame fun o : Obj V => o.bRhsPre) (do
            let w ← M.get
            if w.obj.rhs.isNone then setupRhs C
            let w ← M.get
            if w.obj.bndMat.isNone then setupScaledMass C : WM V Unit) := by
          refine .bind .get fun _ => ?_
          split
          · exact .bind f3 fun _ => k4
          · exact k4
        have k2 : Pres (Rel.frame fun o : Obj V => o.bRhsPre) (do
            let w ← M.get
            if w.obj.coupMat.isNone then setupCoupling C
            let w ← M.get
            if w.obj.rhs.isNone then setupRhs C
            let w ← M.get
            if w.obj.bndMat.isNone then setupScaledMass C : WM V Unit) := by
          refine .bind .get fun _ => ?_
          split
          · exact .bind f2 fun _ => k3
          · exact k3
        refine .bind .get fun _ => ?_
        split
        · exact .bind f1 fun _ => k2
        · exact k2
      have e : runOp C .prepare w = (do
          let w ← M.get
          if w.obj.firstMat.isNone && !C.D.wellPosed then
            setupSlabMatrix C false
          let w ← M.get
          if w.obj.coupMat.isNone then setupCoupling C
          let w ← M.get
          if w.obj.rhs.isNone then setupRhs C
          let w ← M.get
          if w.obj.bndMat.isNone then setupScaledMass C : WM V Unit) w := by
        change prepareGmres C w = _
        unfold prepareGmres
        rw [M.bind_ok (M.get_run w)]
        simp only [hA, Option.isNone_some, Bool.false_eq_true, if_false]
      change (runOp C .prepare w).2.obj.bRhsPre = none
      rw [e]
      exact (hp w).trans h2
    · exact (frame_bRhsPre op hop w).trans h2

/-- Without the work vector the improved preconditioner raises `AttributeError`. -/
theorem preImproved_no_vector {w : World V} (hfw : C.D.jumpsFw = false) (h : w.obj.bRhsPre = none) (b x : Ref) :
    preTimeMarchingImproved C b x w = (.error .attributeError, w) := by
  unfold preTimeMarchingImproved
  simp only [hfw, Bool.false_eq_true, if_false]
  rw [M.bind_error (M.attr_none (by exact h))]

/-- Without the jump-free work vectors the matrix-free product raises `AttributeError`. -/
theorem apply_no_vectors {w : World V} (hN : 1 ≤ C.D.N) (hd : w.obj.dofmaps = some (mkDofmaps C))
    (h : w.obj.slabVecs = none) (x y : Ref) :
    (applySpacetimeMatrix C x y w).1 = .error .attributeError := by
  obtain ⟨N', hN'⟩ : ∃ N', C.D.N = N' + 1 := ⟨C.D.N - 1, by omega⟩
  have hN0 : 0 < C.D.N := hN
  have hg : ∀ w : World V, w.obj.dofmaps = some (mkDofmaps C) → w.obj.slabVecs = none →
      mfGather C x Counters.init w = (.error .attributeError, w) := by
    intro w hd h
    have hl := full_lookup C.D C.full (j := 0) (i := 0) (by simp [Disc.timeOrder]; omega)
    unfold mfGather blockLoop
    rw [M.forList_cons, List.range_succ_eq_map, M.forList_cons]
    refine M.bind_error (M.bind_error ?_)
    beta_reduce
    rw [M.bind_ok (M.attr_some (a := mkDofmaps C) (by exact hd))]
    have e : (Counters.init.shift 0 + ((0 : ℕ) : ℤ)) = ((0 : ℕ) : ℤ) := by simp [Counters.shift, Counters.init]
    rw [e]
    have e' : pyIdx ((mkDofmaps C).full 0) ((0 : ℕ) : ℤ) = .ok (C.full.collapse 0 0) := hl
    rw [e', M.bind_ok (M.lift_run _ _)]
    exact M.bind_error (M.attr_none (by exact h))
  unfold applySpacetimeMatrix slabForM
  rw [M.bind_ok (setVec_run _ _ _), hN', List.range_succ_eq_map]
  have e1 : mfBody C x y Counters.init 0 (w.put y 0) = (.error .attributeError, w.put y 0) := by
    unfold mfBody
    exact M.bind_error (hg _ hd h)
  have e2 : (M.forAcc (0 :: List.map Nat.succ (List.range N')) Counters.init fun c n => do
      mfBody C x y c n
      return c.next C.D.q C.D.qstar : WM V Counters) (w.put y 0) = (.error .attributeError, w.put y 0) :=
    M.bind_error (M.bind_error e1)
  rw [M.bind_error e2]

end Dxss
