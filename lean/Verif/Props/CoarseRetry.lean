import Verif.Props.CoarseApi

/-!
# Property C86: a `prepare_coarse_grid_correction` that fails on an object which already has a coarse mesh
-/

namespace Dxss
open Finset
set_option linter.unusedSectionVars false
variable {V : Type} [AddCommGroup V] [Module ℝ V] {C : Cfg V} {K K' : CoarseMesh V}

/-- `get_spacetime_matrix_coarse()` returns the matrix of the space-time form on the mesh `K`. -/
def MatrixFor (C : Cfg V) (K : CoarseMesh V) (w : World V) : Prop :=
  ∃ A w₁, getSpacetimeMatrixCoarse w = (.ok (some A), w₁) ∧ K.Discretises C.D A

/-- `prolongation` and `restriction` are the interpolations between the fine mesh and the mesh `K`. -/
def TransfersFor (C : Cfg V) (K : CoarseMesh V) (w : World V) : Prop :=
  ∀ up down, K.Interpolates C.fe up down →
    (∀ (x : InVec) (y : ℕ), x.ref ≠ .user y → (runOp C (.prolongation x y) w).1 = .ok () ∧
      MapsTo C.D up (K.full.field K.fe (w.heap x.ref))
        (C.full.field C.fe ((runOp C (.prolongation x y) w).2.heap (.user y)))) ∧
    (∀ (x : ℕ) (y : InVec), .user x ≠ y.ref → (runOp C (.restriction x y) w).1 = .ok () ∧
      MapsTo C.D down (C.full.field C.fe (w.heap y.ref))
        (K.full.field K.fe ((runOp C (.restriction x y) w).2.heap (.user x))))

theorem CoarseReady.transfers (hC : C.Ok) (hK : K.Ok C) (hf : C.fe.OneSpace) (hc : K.fe.OneSpace) {w : World V}
    (h : CoarseReady C K w.obj) : TransfersFor C K w := by
  have hk : ∀ {c : Fin 4} {i : ℕ}, i < (if c = 0 ∨ c = 1 then C.D.q + 1 else C.D.qstar + 1) * C.D.N → i < K.full.nsub c :=
    fun hi => by rw [hK.fullN, ← hC.fullN]; exact fullN_of hC hi
  refine fun up down hI => ⟨fun x y hxy => ?_, fun x y hxy => ?_⟩
  · obtain ⟨w', e, -, h2, -⟩ := prolongation_run hC hK hf.size hc.size h (xf := .user y) hxy x.notNode (by simp [nodeRefs])
    have er : runOp C (.prolongation x y) w = (.ok (), w') := e
    rw [er]
    exact ⟨rfl, fun c i hi => h2.field hc hf hI.up (hk hi) (fullN_of hC hi)⟩
  · obtain ⟨w', e, -, h2, -⟩ := restriction_run hC hK hf.size hc.size h (xc := .user x) hxy (by simp [nodeRefs]) y.notNode
    have er : runOp C (.restriction x y) w = (.ok (), w') := e
    rw [er]
    exact ⟨rfl, fun c i hi => h2.field hf hc hI.down (fullN_of hC hi) (hk hi)⟩

/-- The full statement of C86: whether or not a further `prepare_coarse_grid_correction(K')` succeeds, the matrix handed
out and the transfers afterwards belong to the same mesh.  It is false, see `C86_violated`. -/
def C86_statement (V : Type) [AddCommGroup V] [Module ℝ V] : Prop :=
  ∀ (C : Cfg V) (K K' : CoarseMesh V) (w₀ : World V) (before after : List (Op V)), C.Ok → K.Ok C → K'.Ok C →
    C.fe.OneSpace → K.fe.OneSpace → K'.fe.OneSpace → CoarseHistory C K w₀ before after →
    let w := (runOp C (.prepareCoarse K') (runOps C (before ++ .prepareCoarse K :: after) w₀)).2
    (MatrixFor C K w ∧ TransfersFor C K w) ∨ (MatrixFor C K' w ∧ TransfersFor C K' w)

/-! ## The right-hand side once set up stays set up -/

/-- Something that holds of the object stays true. -/
def Rel.stays (P : Obj V → Prop) : Rel (World V) where
  r w w' := P w.obj → P w'.obj
  refl _ := id
  trans h h' := fun x => h' (h x)

theorem stays_ext {P : Obj V → Prop} : Pres (Rel.stays P) ext := fun _ => id
theorem stays_mod {P : Obj V → Prop} {f : Obj V → Obj V} (h : ∀ o, P o → P (f o)) : Pres (Rel.stays P) (modObj f) :=
  fun _ => h _
theorem stays_setVec {P : Obj V → Prop} (r : Ref) (v : Vec) : Pres (Rel.stays P) (setVec r v) := fun _ => id

/-- Decompose a computation that keeps a right-hand side. -/
macro "lfi_tac" : tactic => `(tactic| repeat' (first
  | with_reducible exact stays_ext
  | with_reducible exact stays_mod (fun _ h => h)
  | with_reducible exact stays_mod (fun _ _ => by simp)
  | with_reducible exact stays_setVec _ _
  | with_reducible exact Pres.attr _ _
  | with_reducible exact Pres.pure _
  | with_reducible exact Pres.get
  | with_reducible exact Pres.lift _
  | with_reducible exact Pres.raise _
  | with_reducible refine Pres.bind ?_ ?_
  | with_reducible intro _
  | split))

theorem lfi_setupRhs : Pres (Rel.stays fun o => o.lfi ≠ none) (setupRhs C) := by unfold setupRhs; lfi_tac

theorem lfi_prepare : Pres (Rel.stays fun o => o.lfi ≠ none) (prepareGmres C) := by
  have hs : ∀ j, Pres (Rel.stays fun o : Obj V => o.lfi ≠ none) (setupSlabMatrix C j) := fun j => by
    unfold setupSlabMatrix; lfi_tac
  have hc : Pres (Rel.stays fun o : Obj V => o.lfi ≠ none) (setupCoupling C) := by unfold setupCoupling; lfi_tac
  have hm : Pres (Rel.stays fun o : Obj V => o.lfi ≠ none) (setupScaledMass C) := by unfold setupScaledMass; lfi_tac
  have un : ∀ {c : World V → Bool} {x y : WM V Unit}, Pres (Rel.stays fun o => o.lfi ≠ none) x →
      Pres (Rel.stays fun o => o.lfi ≠ none) y → Pres (Rel.stays fun o : Obj V => o.lfi ≠ none) (do
        let w ← M.get
        if c w then x
        y) := by
    intro c x y hx hy
    refine .bind .get fun _ => ?_
    split
    · exact .bind hx fun _ => hy
    · exact hy
  have k4 : Pres (Rel.stays fun o : Obj V => o.lfi ≠ none) (do
      let w ← M.get
      if w.obj.bndMat.isNone then setupScaledMass C : WM V Unit) := .bind .get fun _ => .ite hm (.pure _)
  have k2 := un (c := fun w => w.obj.firstMat.isNone && !C.D.wellPosed) (hs false)
    (un (c := fun w => w.obj.coupMat.isNone) hc (un (c := fun w => w.obj.rhs.isNone) (lfi_setupRhs (C := C)) k4))
  unfold prepareGmres
  refine .bind .get fun _ => ?_
  split
  · exact .bind (hs true) fun _ => .bind stays_ext fun _ => .bind (stays_mod fun _ h => h) fun _ =>
      .bind (stays_setVec _ _) fun _ => k2
  · exact k2

theorem lfi_op (op : Op V) : Pres (Rel.stays fun o => o.lfi ≠ none) (runOp C op) := by
  by_cases h : op.BuildsRhs
  · cases op <;> first | exact h.elim | skip
    case prepare => exact lfi_prepare
    case setupRhs => exact lfi_setupRhs
    case getRhs =>
      refine .void (.bind .get fun w => ?_)
      split
      · exact .bind lfi_setupRhs fun _ => .pure _
      · exact .pure _
    case getLfi =>
      simp only [runOp, M.void, getSpacetimeLfi, setupRhs]
      lfi_tac
  · intro w hw
    have f := frame_rhs (C := C) op h w
    have f' : (runOp C op w).2.obj.lfi = w.obj.lfi := congrArg Prod.fst f
    rwa [f']

theorem lfi_ops (ops : List (Op V)) (w : World V) (h : w.obj.lfi ≠ none) : (runOps C ops w).obj.lfi ≠ none := by
  induction ops generalizing w with
  | nil => exact h
  | cons op ops ih => exact ih _ (lfi_op op w h)

/-! ## C86 -/

variable {w₀ : World V} {before after : List (Op V)}

theorem CoarseHistory.lfi (h : CoarseHistory C K w₀ before after) :
    (runOps C (before ++ .prepareCoarse K :: after) w₀).obj.lfi ≠ none := by
  rw [CoarseHistory.split]
  refine lfi_ops _ _ (lfi_op (.prepareCoarse K) _ fun e => C38_needs_rhs (C := C) (K := K) e h.prepared)

theorem CoarseHistory.matrix (hC : C.Ok) (hK : K.Ok C) (h : CoarseHistory C K w₀ before after) :
    MatrixFor C K (runOps C (before ++ .prepareCoarse K :: after) w₀) := by
  obtain ⟨A, w₁, hA, hD⟩ := C77_last_mesh hC hK _ _ (Prod.ext h.prepared rfl) after h.last
  exact ⟨A, w₁, by rw [CoarseHistory.split]; exact hA, hD⟩

/-- Where a failing preparation stops: before anything was stored, between the transfers and the matrix, or later. -/
theorem prepareCoarse_failsAt {w : World V} (hd : w.obj.dofmaps ≠ none) (hl : w.obj.lfi ≠ none) {k : ℕ} (hk : k < 4)
    (hs : w.FailsAt k) :
    (prepareCoarse C K' w).1 = .error .runtimeError ∧
    (prepareCoarse C K' w).2.obj.dofmaps = w.obj.dofmaps ∧
    (prepareCoarse C K' w).2.obj.coarseMaps = (if k = 0 then w.obj.coarseMaps else some (buildDofmapsFull C.D K'.full)) ∧
    (prepareCoarse C K' w).2.obj.coarseNode = (if k = 0 then w.obj.coarseNode else some K') ∧
    (prepareCoarse C K' w).2.obj.coarseMat = (if k ≤ 1 then w.obj.coarseMat else some (coarseMatOf C K')) ∧
    (prepareCoarse C K' w).2.NoFail := by
  obtain ⟨o, hp, s, c⟩ := w
  obtain ⟨d, hd⟩ := Option.ne_none_iff_exists'.1 hd
  obtain ⟨l, hl⟩ := Option.ne_none_iff_exists'.1 hl
  simp only [World.FailsAt] at hs hd hl
  interval_cases k <;>
    simp [prepareCoarse, M.bind_run, ext, M.attr, hd, hl, hs, modObj, setVec, M.modify, M.forList, add_assoc,
      World.NoFail] <;> intro j hj <;> omega

/-- C86, what does hold: if the `k`-th of the four operations of the new preparation fails, the call raises, and then
* for `k = 0` matrix and transfers are still those of the earlier mesh,
* for `k = 1` (assembly of the matrix) the matrix is that of the earlier, the transfers are those of the new mesh,
* for `k = 2, 3` both are those of the new mesh. -/
theorem C86_failed_partial (hC : C.Ok) (hK : K.Ok C) (hK' : K'.Ok C) (hf : C.fe.OneSpace) (hc : K.fe.OneSpace)
    (hc' : K'.fe.OneSpace) (h : CoarseHistory C K w₀ before after) {k : ℕ} (hk : k < 4)
    (hs : (runOps C (before ++ .prepareCoarse K :: after) w₀).FailsAt k) :
    let r := runOp C (.prepareCoarse K') (runOps C (before ++ .prepareCoarse K :: after) w₀)
    r.1 = .error .runtimeError ∧ (if k ≤ 1 then MatrixFor C K r.2 else MatrixFor C K' r.2) ∧
      (if k = 0 then TransfersFor C K r.2 else TransfersFor C K' r.2) := by
  intro r
  have hr := h.ready.1
  obtain ⟨e, e1, e2, e3, e4, -⟩ := prepareCoarse_failsAt (C := C) (K' := K') (by rw [hr.dofmaps]; simp) h.lfi hk hs
  refine ⟨e, ?_, ?_⟩
  · split
    · next hk1 =>
      rw [if_pos hk1] at e4
      obtain ⟨A, w₁, hA, hD⟩ := h.matrix hC hK
      refine ⟨A, r.2, ?_, hD⟩
      have h2 : (runOps C (before ++ .prepareCoarse K :: after) w₀).obj.coarseMat = some A :=
        Except.ok.inj (congrArg Prod.fst hA)
      exact Prod.ext (congrArg Except.ok (e4.trans h2)) rfl
    · next hk1 =>
      rw [if_neg hk1] at e4
      exact ⟨coarseMatOf C K', r.2, Prod.ext (congrArg Except.ok e4) rfl, coarseMatOf_discretises hC hK'⟩
  · split
    · next hk1 =>
      rw [if_pos hk1] at e2 e3
      exact CoarseReady.transfers hC hK hf hc ⟨e1.trans hr.dofmaps, e2.trans hr.maps, e3.trans hr.node⟩
    · next hk1 =>
      rw [if_neg hk1] at e2 e3
      exact CoarseReady.transfers hC hK' hf hc' ⟨e1.trans hr.dofmaps, e2, e3⟩

/-- C86: repeating the failed call succeeds and puts everything on the new mesh. -/
theorem C86_retry (hC : C.Ok) (hK' : K'.Ok C) (hf : C.fe.OneSpace)
    (hc' : K'.fe.OneSpace) (h : CoarseHistory C K w₀ before after) {k : ℕ} (hk : k < 4)
    (hs : (runOps C (before ++ .prepareCoarse K :: after) w₀).FailsAt k) :
    let r := runOp C (.prepareCoarse K') (runOps C (before ++ .prepareCoarse K :: after) w₀)
    let r' := runOp C (.prepareCoarse K') r.2
    r.1 = .error .runtimeError ∧ r'.1 = .ok () ∧ MatrixFor C K' r'.2 ∧ TransfersFor C K' r'.2 := by
  intro r r'
  have hr := h.ready.1
  obtain ⟨e, e1, -, -, -, e5⟩ := prepareCoarse_failsAt (C := C) (K' := K') (by rw [hr.dofmaps]; simp) h.lfi hk hs
  have hl : r.2.obj.lfi ≠ none := lfi_op (.prepareCoarse K') _ h.lfi
  have ok : r'.1 = .ok () := by
    have hd : r.2.obj.dofmaps = some (mkDofmaps C) := e1.trans hr.dofmaps
    have h5 : r.2.NoFail := e5
    change (prepareCoarse C K' r.2).1 = .ok ()
    generalize r.2 = w at hl hd h5
    obtain ⟨o, hp, s, c⟩ := w
    obtain ⟨l, hl⟩ := Option.ne_none_iff_exists'.1 hl
    simp only at hl hd
    have h' : ∀ k, s (c + k) = false := fun k => h5 _ (Nat.le_add_right _ _)
    have h0 : s c = false := h' 0
    simp [prepareCoarse, M.bind_run, ext, h', h0, M.attr, hl, hd, modObj, setVec, M.modify, M.forList, add_assoc]
  have hh : CoarseHistory C K' w₀ (before ++ .prepareCoarse K :: (after ++ [.prepareCoarse K'])) [] := by
    refine ⟨h.fresh, ?_, by simp⟩
    rw [show before ++ .prepareCoarse K :: (after ++ [.prepareCoarse K'])
      = (before ++ .prepareCoarse K :: after) ++ [.prepareCoarse K'] by simp, runOps_append]
    exact ok
  have e : runOps C ((before ++ .prepareCoarse K :: (after ++ [.prepareCoarse K'])) ++ [.prepareCoarse K']) w₀ = r'.2 := by
    rw [show (before ++ .prepareCoarse K :: (after ++ [.prepareCoarse K'])) ++ [.prepareCoarse K']
      = (before ++ .prepareCoarse K :: after) ++ ([.prepareCoarse K'] ++ [.prepareCoarse K']) by simp, runOps_append]
    rfl
  have m := hh.matrix hC hK'
  have t := hh.ready.1.transfers hC hK' hf hc'
  rw [e] at m t
  exact ⟨by assumption, ok, m, t⟩

/-! ## Non-vacuity and refutation -/

namespace Example
open Polynomial

/-- A second coarse mesh, with constants only. -/
noncomputable def coarse₀ : CoarseMesh ℝ[X] where
  S := polySpace
  indOf := id
  fe := feMono 1
  full := stdSpace (fullSizes 1 1 2) (feMono 1).m
  toFine := trunc 1
  toCoarse := trunc 1

theorem coarse₀_ok : coarse₀.Ok cfgMono := ⟨stdSpace_ok _ _, rfl⟩

theorem coarse₀_interpolates : coarse₀.Interpolates cfgMono.fe id (fun p => Polynomial.C (p.coeff 0)) where
  up a := by simp [coarse₀, cfgMono, feMono, trunc, sum_range_succ]
  down a := by simp [coarse₀, cfgMono, feMono, trunc, sum_range_succ, coeff_X, coeff_one, smul_eq_C_mul]

/-- A new object; the external operation number `k` fails. -/
def crashAt (heap : Ref → Vec) (k : ℕ) : World ℝ[X] := ⟨{}, heap, fun j => decide (j = k), 0⟩

theorem crash_history (heap : Ref → Vec) (k : ℕ) :
    CoarseHistory cfgMono coarse (crashAt heap (14 + k)) [.setupFE, .prepare] [] ∧
    (runOps cfgMono ([.setupFE, .prepare] ++ .prepareCoarse coarse :: []) (crashAt heap (14 + k))).FailsAt k := by
  have hs : ∀ j < 14, decide (j = 14 + k) = false := fun j hj => by simp; omega
  have hwp : cfgMono.D.wellPosed = false := rfl
  refine ⟨⟨rfl, ?_, by simp⟩, ?_⟩
  · simp [runOps, runOp, crashAt, setupFE, prepareCoarse, prepareGmres, setupSlabMatrix, setupCoupling, setupRhs,
      setupScaledMass, M.bind_run, ext, M.attr, M.get, modObj, setVec, M.modify, M.forList, hwp, hs]
  · simp [World.FailsAt, runOps, runOp, crashAt, setupFE, prepareCoarse, prepareGmres, setupSlabMatrix, setupCoupling,
      setupRhs, setupScaledMass, M.bind_run, ext, M.attr, M.get, modObj, setVec, M.modify, M.forList, hwp, hs]

example (heap : Ref → Vec) := C86_failed_partial cfgMono_ok coarse_ok coarse₀_ok (mono_oneSpace 3) (mono_oneSpace 2)
  (mono_oneSpace 1) (crash_history heap 1).1 (by decide) (crash_history heap 1).2
example (heap : Ref → Vec) := C86_retry cfgMono_ok coarse₀_ok (mono_oneSpace 3) (mono_oneSpace 1)
  (crash_history heap 3).1 (by decide) (crash_history heap 3).2

/-- C86 is false. -/
theorem C86_violated : ¬ C86_statement ℝ[X] := by
  intro h
  obtain ⟨hh, hs⟩ := crash_history (fun _ _ => 1) 1
  have h1 := h cfgMono coarse coarse₀ _ _ _ cfgMono_ok coarse_ok coarse₀_ok (mono_oneSpace 3) (mono_oneSpace 2)
    (mono_oneSpace 1) hh
  obtain ⟨-, h2, h3⟩ := C86_failed_partial cfgMono_ok coarse_ok coarse₀_ok (mono_oneSpace 3) (mono_oneSpace 2)
    (mono_oneSpace 1) hh (by decide) hs
  rw [if_pos le_rfl] at h2
  rw [if_neg one_ne_zero] at h3
  have hx := C80_history (C := cfgMono) (k := 0) ([.setupFE, .prepare] ++ .prepareCoarse coarse :: [.prepareCoarse coarse₀])
    (by simp [Op.output]) (crashAt (fun _ _ => 1) (14 + 1))
  have e : runOps cfgMono ([.setupFE, .prepare] ++ .prepareCoarse coarse :: [.prepareCoarse coarse₀])
      (crashAt (fun _ _ => 1) (14 + 1)) = (runOp cfgMono (.prepareCoarse coarse₀) (runOps cfgMono ([.setupFE, .prepare]
        ++ .prepareCoarse coarse :: []) (crashAt (fun _ _ => 1) (14 + 1)))).2 := rfl
  rw [e] at hx
  generalize (runOp cfgMono (.prepareCoarse coarse₀) (runOps cfgMono ([.setupFE, .prepare]
        ++ .prepareCoarse coarse :: []) (crashAt (fun _ _ => 1) (14 + 1)))).2 = w at h1 h2 h3 hx
  rcases h1 with ⟨-, h1⟩ | ⟨h1, -⟩
  · have t1 := ((h1 _ _ coarse_interpolates).1 (.user 0) 1 (by simp [InVec.ref])).2 0 0 (by decide)
    have t3 := ((h3 _ _ coarse₀_interpolates).1 (.user 0) 1 (by simp [InVec.ref])).2 0 0 (by decide)
    have t := t1.symm.trans t3
    have hx' : w.heap (.user 0) = fun _ => 1 := hx
    simp only [InVec.ref, hx', id] at t
    rw [field_block (fe := coarse.fe) (mono_oneSpace 2) (show 0 < coarse.full.nsub 0 by decide),
      field_block (fe := coarse₀.fe) (mono_oneSpace 1) (show 0 < coarse₀.full.nsub 0 by decide)] at t
    have t' := congrArg (fun p => p.coeff 1) t
    simp [coarse, coarse₀, feMono, sum_range_succ, coeff_one] at t'
  · obtain ⟨A, w₁, e1, d1⟩ := h1
    obtain ⟨A', w₂, e2, d2⟩ := h2
    rw [e1] at e2
    cases e2
    have := d1.1.symm.trans d2.1
    simp [coarse, coarse₀, stdSpace, feMono, fullSizes, FE.m] at this

end Example
end Dxss
