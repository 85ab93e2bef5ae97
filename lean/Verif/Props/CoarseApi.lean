import Verif.Props.CoarseMatrix
import Verif.Props.CallerVectors

/-!
# Property C85: the coarse-grid calls, in any history of public calls, as operations on functions
-/

namespace Dxss
open Finset
set_option linter.unusedSectionVars false
variable {V : Type} [AddCommGroup V] [Module ℝ V] {C : Cfg V} {K : CoarseMesh V}

/-- Primal and dual variables use the same scalar space (`k = kstar`). -/
structure FE.OneSpace (fe : FE V) : Prop where
  size : fe.mP = fe.mD
  basis : ∀ s < fe.mP, fe.bD s = fe.bP s

/-- DOLFINx' interpolation between the scalar spaces of the two meshes, as operations on functions. -/
structure CoarseMesh.Interpolates (K : CoarseMesh V) (fe : FE V) (up down : V → V) : Prop where
  up : ∀ a : Vec, ∑ s ∈ range fe.mP, K.toFine a s • fe.bP s = up (∑ s ∈ range K.fe.mP, a s • K.fe.bP s)
  down : ∀ a : Vec, ∑ s ∈ range K.fe.mP, K.toCoarse a s • K.fe.bP s = down (∑ s ∈ range fe.mP, a s • fe.bP s)

/-- Every component of the discrete function `g` is the image of the same component of `f`. -/
def MapsTo (D : Disc V) (T : V → V) (f g : Field V) : Prop :=
  ∀ c : Fin 4, ∀ i : ℕ, i < (if c = 0 ∨ c = 1 then D.q + 1 else D.qstar + 1) * D.N → g c i = T (f c i)

theorem field_block {fe : FE V} (h1 : fe.OneSpace) {L : FSpace} {c : Fin 4} {i : ℕ} (hi : i < L.nsub c) (x : Vec) :
    L.field fe x c i = ∑ s ∈ range fe.mP, x (L.dof c i s) • fe.bP s := by
  unfold FSpace.field
  rw [if_pos ⟨by omega, by exact_mod_cast hi⟩, Int.toNat_natCast]
  have hm : fe.m c = fe.mP := by fin_cases c <;> simp [FE.m, h1.size]
  rw [hm]
  refine sum_congr rfl fun s hs => ?_
  have hs := mem_range.1 hs
  congr 1
  fin_cases c <;> simp [FE.basis, h1.basis s hs]

theorem Transferred.field {fs fd : FE V} (hs : fs.OneSpace) (hd : fd.OneSpace) {Ls Ld : FSpace} {itp : Vec → Vec} {T : V → V}
    (hi : ∀ a : Vec, ∑ s ∈ range fd.mP, itp a s • fd.bP s = T (∑ s ∈ range fs.mP, a s • fs.bP s)) {x y : Vec}
    (h : Transferred Ls Ld fs.mP fd.mP itp x y) {c : Fin 4} {i : ℕ} (h1 : i < Ls.nsub c) (h2 : i < Ld.nsub c) :
    Ld.field fd y c i = T (Ls.field fs x c i) := by
  rw [field_block hd h2, field_block hs h1]
  have e1 : ∑ s ∈ range fd.mP, y (Ld.dof c i s) • fd.bP s
      = ∑ s ∈ range fd.mP, itp (blockVal Ls fs.mP x c i) s • fd.bP s :=
    sum_congr rfl fun s hs => by rw [h c i s h2 (mem_range.1 hs)]
  rw [e1, hi]
  congr 1
  refine sum_congr rfl fun s hs => ?_
  rw [blockVal, if_pos (mem_range.1 hs)]

/-! ## The state reached -/

theorem frame_coarse (op : Op V) (h : ¬ op.PreparesCoarse) :
    Pres (Rel.frame fun o => (o.coarseMaps, o.coarseNode, o.coarseTmps)) (runOp C op) := by
  op_frame_tac op h

theorem prepareCoarse_state {w : World V} (h : (prepareCoarse C K w).1 = .ok ()) :
    (prepareCoarse C K w).2.obj.coarseMaps = some (buildDofmapsFull C.D K.full) ∧
    (prepareCoarse C K w).2.obj.coarseNode = some K ∧ (prepareCoarse C K w).2.obj.coarseTmps = some () ∧
    (prepareCoarse C K w).2.obj.dofmaps = w.obj.dofmaps ∧ w.obj.dofmaps ≠ none := by
  obtain ⟨o, hp, s, c⟩ := w
  revert h
  rcases hd : o.dofmaps with _ | d <;> rcases hl : o.lfi with _ | l <;>
    rcases h0 : s c with _ | _ <;> rcases h1 : s (c + 1) with _ | _ <;> rcases h2 : s (c + 2) with _ | _ <;>
    rcases h3 : s (c + 3) with _ | _ <;>
  simp [prepareCoarse, M.bind_run, ext, M.attr, hd, hl, h0, h1, h2, h3, modObj, setVec, M.modify, M.forList, add_assoc]

/-- The calls `before`, a successful `prepare_coarse_grid_correction(K)`, and the calls `after`, which do not prepare
another coarse mesh. -/
structure CoarseHistory (C : Cfg V) (K : CoarseMesh V) (w₀ : World V) (before after : List (Op V)) : Prop where
  fresh : w₀.Fresh
  prepared : (runOp C (.prepareCoarse K) (runOps C before w₀)).1 = .ok ()
  last : ∀ op ∈ after, ¬ op.PreparesCoarse

variable {w₀ : World V} {before after : List (Op V)}

theorem CoarseHistory.split (before after : List (Op V)) (w₀ : World V) :
    runOps C (before ++ .prepareCoarse K :: after) w₀
      = runOps C after (runOp C (.prepareCoarse K) (runOps C before w₀)).2 := by rw [runOps_append]; rfl

theorem CoarseHistory.ready (h : CoarseHistory C K w₀ before after) :
    CoarseReady C K (runOps C (before ++ .prepareCoarse K :: after) w₀).obj ∧
    (runOps C (before ++ .prepareCoarse K :: after) w₀).obj.coarseTmps = some () := by
  have h1 := prepareCoarse_state (C := C) (K := K) h.prepared
  have i := inv_reach (C := C) h.fresh (before ++ [.prepareCoarse K])
  rw [runOps_append] at i
  obtain ⟨d, hd⟩ := Option.ne_none_iff_exists'.1 h1.2.2.2.2
  have hd' := h1.2.2.2.1.trans hd
  rw [(inv_reach (C := C) h.fresh before).dofmaps d hd] at hd'
  rw [CoarseHistory.split]
  have f := frame_ops (C := C) frame_coarse h.last (runOp C (.prepareCoarse K) (runOps C before w₀)).2
  simp only [Prod.mk.injEq] at f
  exact ⟨⟨(keep_reach i after).dofmaps _ hd', f.1.trans h1.1, f.2.1.trans h1.2.1⟩, f.2.2.trans h1.2.2.1⟩

/-- The calls that set the coarse solver. -/
def Op.SetsCoarse : Op V → Prop
  | .setSolverCoarse _ => True
  | _ => False

set_option maxHeartbeats 1000000 in
theorem frame_solverCoarse (op : Op V) (h : ¬ op.SetsCoarse) : Pres (Rel.frame fun o => o.solverCoarse) (runOp C op) := by
  op_frame_tac op h

theorem solverCoarse_some {ops : List (Op V)} {s : Solver} (hs : .setSolverCoarse s ∈ ops) (w : World V) :
    ∃ s', (runOps C ops w).obj.solverCoarse = some s' ∧ .setSolverCoarse s' ∈ ops := by
  have key : ∀ (ops : List (Op V)) (w : World V), (∃ s', w.obj.solverCoarse = some s') →
      ∃ s', (runOps C ops w).obj.solverCoarse = some s' ∧ (w.obj.solverCoarse = some s' ∨ .setSolverCoarse s' ∈ ops) := by
    intro ops
    induction ops with
    | nil => exact fun w ⟨s, h⟩ => ⟨s, h, .inl h⟩
    | cons op ops ih =>
      intro w hw
      by_cases hop : ∃ s', op = .setSolverCoarse s'
      · obtain ⟨s', rfl⟩ := hop
        obtain ⟨t, e, h⟩ := ih (runOp C (.setSolverCoarse s') w).2 ⟨s', rfl⟩
        refine ⟨t, e, .inr ?_⟩
        rcases h with h | h
        · have : s' = t := Option.some.inj h
          simp [this]
        · simp [h]
      · have f := frame_solverCoarse (C := C) op
          (fun e => hop (by cases op <;> first | exact ⟨_, rfl⟩ | exact e.elim)) w
        have f' : (runOp C op w).2.obj.solverCoarse = w.obj.solverCoarse := f
        obtain ⟨t, e, h⟩ := ih (runOp C op w).2 (by rw [f']; exact hw)
        rw [f'] at h
        exact ⟨t, e, h.imp id fun h => by simp [h]⟩
  induction ops generalizing w with
  | nil => cases hs
  | cons op ops ih =>
    by_cases hm : .setSolverCoarse s ∈ ops
    · obtain ⟨s', e, h⟩ := ih hm (runOp C op w).2
      exact ⟨s', e, by simp [h]⟩
    · have : op = .setSolverCoarse s := by
        rcases List.mem_cons.1 hs with h | h
        · exact h.symm
        · exact absurd h hm
      subst this
      obtain ⟨t, e, h⟩ := key ops (runOp C (.setSolverCoarse s) w).2 ⟨s, rfl⟩
      refine ⟨t, e, ?_⟩
      rcases h with h | h
      · have : s = t := Option.some.inj h
        simp [this]
      · simp [h]

theorem InVec.notNode (x : InVec) : x.ref ∉ nodeRefs := by cases x <;> simp [InVec.ref, nodeRefs]
theorem InVec.notQ (x : InVec) : x.ref ∉ qScratch := by cases x <;> simp [InVec.ref, qScratch]

theorem fullN_of (hC : C.Ok) {c : Fin 4} {i : ℕ}
    (h : i < (if c = 0 ∨ c = 1 then C.D.q + 1 else C.D.qstar + 1) * C.D.N) : i < C.full.nsub c := by
  rw [hC.fullN]
  fin_cases c <;> simpa [fullSizes] using h

/-! ## C85 -/

variable {up down : V → V}

/-- C85, `prolongation(x, y)`: it returns, and every component of the function in `y` is the interpolant of the same
component of the function in `x`. -/
theorem C85_prolongation (hC : C.Ok) (hK : K.Ok C) (hf : C.fe.OneSpace) (hc : K.fe.OneSpace)
    (hI : K.Interpolates C.fe up down) (h : CoarseHistory C K w₀ before after) (x : InVec) (y : ℕ) (hxy : x.ref ≠ .user y) :
    let w := runOps C (before ++ .prepareCoarse K :: after) w₀
    let r := runOp C (.prolongation x y) w
    r.1 = .ok () ∧ MapsTo C.D up (K.full.field K.fe (w.heap x.ref)) (C.full.field C.fe (r.2.heap (.user y))) := by
  intro w r
  obtain ⟨w', e, -, h2, -⟩ := prolongation_run hC hK hf.size hc.size h.ready.1 (xf := .user y) hxy x.notNode
    (by simp [nodeRefs])
  have er : r = (.ok (), w') := e
  rw [er]
  exact ⟨rfl, fun c i hi => h2.field hc hf hI.up (by rw [hK.fullN, ← hC.fullN]; exact fullN_of hC hi) (fullN_of hC hi)⟩

/-- C85, `restriction(x, y)`: likewise in the other direction. -/
theorem C85_restriction (hC : C.Ok) (hK : K.Ok C) (hf : C.fe.OneSpace) (hc : K.fe.OneSpace)
    (hI : K.Interpolates C.fe up down) (h : CoarseHistory C K w₀ before after) (x : ℕ) (y : InVec) (hxy : .user x ≠ y.ref) :
    let w := runOps C (before ++ .prepareCoarse K :: after) w₀
    let r := runOp C (.restriction x y) w
    r.1 = .ok () ∧ MapsTo C.D down (C.full.field C.fe (w.heap y.ref)) (K.full.field K.fe (r.2.heap (.user x))) := by
  intro w r
  obtain ⟨w', e, -, h2, -⟩ := restriction_run hC hK hf.size hc.size h.ready.1 (xc := .user x) hxy
    (by simp [nodeRefs]) y.notNode
  have er : r = (.ok (), w') := e
  rw [er]
  exact ⟨rfl, fun c i hi => h2.field hf hc hI.down (fullN_of hC hi) (by rw [hK.fullN, ← hC.fullN]; exact fullN_of hC hi)⟩

/-- C85, restriction after prolongation is the identity on the functions if interpolation to the fine mesh and back is
the identity on the coarse scalar space. -/
theorem C85_round_trip (hC : C.Ok) (hK : K.Ok C) (hf : C.fe.OneSpace) (hc : K.fe.OneSpace)
    (hI : K.Interpolates C.fe up down)
    (hn : ∀ a : Vec, down (up (∑ s ∈ range K.fe.mP, a s • K.fe.bP s)) = ∑ s ∈ range K.fe.mP, a s • K.fe.bP s)
    (h : CoarseHistory C K w₀ before after) (x : InVec) (y z : ℕ) (hxy : x.ref ≠ .user y) (hyz : z ≠ y) :
    let w := runOps C (before ++ .prepareCoarse K :: after) w₀
    let r₁ := runOp C (.prolongation x y) w
    let r₂ := runOp C (.restriction z (.user y)) r₁.2
    r₁.1 = .ok () ∧ r₂.1 = .ok () ∧
      MapsTo C.D id (K.full.field K.fe (w.heap x.ref)) (K.full.field K.fe (r₂.2.heap (.user z))) := by
  intro w r₁ r₂
  obtain ⟨h1, h2⟩ := C85_prolongation hC hK hf hc hI h x y hxy
  have h' : CoarseHistory C K w₀ before (after ++ [.prolongation x y]) := ⟨h.fresh, h.prepared, fun op ho => by
    rcases List.mem_append.1 ho with ho | ho
    · exact h.last op ho
    · rw [List.mem_singleton.1 ho]; exact id⟩
  obtain ⟨h3, h4⟩ := C85_restriction hC hK hf hc hI h' z (.user y) (by simp [InVec.ref, hyz])
  have e : runOps C (before ++ .prepareCoarse K :: (after ++ [.prolongation x y])) w₀ = r₁.2 := by
    rw [show before ++ .prepareCoarse K :: (after ++ [.prolongation x y])
      = (before ++ .prepareCoarse K :: after) ++ [.prolongation x y] by simp, runOps_append]
    rfl
  rw [e] at h3 h4
  refine ⟨h1, h3, fun c i hi => ?_⟩
  have hk : i < K.full.nsub c := by rw [hK.fullN, ← hC.fullN]; exact fullN_of hC hi
  rw [h4 c i hi]
  change down (C.full.field C.fe (r₁.2.heap (.user y)) c i) = _
  rw [h2 c i hi, field_block hc hk]
  exact hn _

/-- C85, `q_op(b, x)` with a coarse solver that solves with the matrix of `get_spacetime_matrix_coarse()`: the call
returns; with `r` the restriction of `b`, `u` the vector the solver returned for `r`, the function in `x` is the
prolongation of `u`, and `u` solves the variational problem on the coarse mesh with right-hand side `r`. -/
theorem C85_q_op (hC : C.Ok) (hK : K.Ok C) (hf : C.fe.OneSpace) (hc : K.fe.OneSpace)
    (hI : K.Interpolates C.fe up down) (h : CoarseHistory C K w₀ before after) {f : Vec → Py Vec}
    (hloc : Local K.full.size f) (htot : Total f)
    (hset : ∃ s, .setSolverCoarse s ∈ before ++ .prepareCoarse K :: after)
    (hall : ∀ s, .setSolverCoarse s ∈ before ++ .prepareCoarse K :: after → s.Computes K.full.size f)
    (hsol : ∀ A w₁, getSpacetimeMatrixCoarse (runOps C (before ++ .prepareCoarse K :: after) w₀) = (.ok (some A), w₁) →
      Solves f A) (b : InVec) (x : ℕ) :
    let w := runOps C (before ++ .prepareCoarse K :: after) w₀
    let res := runOp C (.qOp b x) w
    res.1 = .ok () ∧ ∃ r u : Vec, MapsTo C.D down (C.full.field C.fe (w.heap b.ref)) (K.full.field K.fe r) ∧
      f r = .ok u ∧
      (∀ y : Vec, Spec.form K.S C.D (K.indOf C.D.ind) false (K.full.field K.fe u) (K.full.field K.fe y)
        + 1e-20 * K.S.mass (K.full.field K.fe u 0 0) (K.full.field K.fe y 2 0) = ∑ d ∈ range K.full.size, r d * y d) ∧
      MapsTo C.D up (K.full.field K.fe u) (C.full.field C.fe (res.2.heap (.user x))) := by
  intro w res
  obtain ⟨s, hs⟩ := hset
  obtain ⟨s', e', hs'⟩ := solverCoarse_some (C := C) hs w₀
  obtain ⟨hr, ht⟩ := h.ready
  have hq : QReady C K w.obj f := { hr with tmps := ht, solver := ⟨s', e', hall s' hs'⟩ }
  obtain ⟨r, hr1, hr2⟩ := C38_value hC hK hf.size hc.size w hloc hq b.notQ (x := .user x) (by simp [qScratch])
  obtain ⟨u, hu⟩ := htot r
  rw [hu] at hr2
  obtain ⟨w', e, -, t⟩ := hr2
  have er : res = (.ok (), w') := e
  obtain ⟨A, w₁, hA, hD⟩ := C77_last_mesh hC hK _ _ (Prod.ext h.prepared rfl) after h.last
  have hs := hsol A w₁ (by rw [CoarseHistory.split]; exact hA)
  rw [er]
  have hk : ∀ {c : Fin 4} {i : ℕ}, i < (if c = 0 ∨ c = 1 then C.D.q + 1 else C.D.qstar + 1) * C.D.N → i < K.full.nsub c :=
    fun hi => by rw [hK.fullN, ← hC.fullN]; exact fullN_of hC hi
  refine ⟨rfl, r, u, fun c i hi => hr1.field hf hc hI.down (fullN_of hC hi) (hk hi), hu, fun y => ?_,
    fun c i hi => t.field hc hf hI.up (hk hi) (fullN_of hC hi)⟩
  rw [← hD.2 u y]
  conv_lhs => rw [hD.1]
  refine sum_congr rfl fun d hd => ?_
  rw [hs r u hu d (by rw [hD.1]; exact mem_range.1 hd)]

/-! ## Non-vacuity -/

namespace Example
open Polynomial

theorem mono_oneSpace (m : ℕ) : (feMono m).OneSpace := ⟨rfl, fun _ _ => rfl⟩

/-- The part of a polynomial of degree at most one. -/
noncomputable def lin (p : ℝ[X]) : ℝ[X] := Polynomial.C (p.coeff 0) + Polynomial.C (p.coeff 1) * X

theorem coarse_interpolates : coarse.Interpolates cfgMono.fe id lin where
  up a := by simp [coarse, cfgMono, feMono, trunc, sum_range_succ]
  down a := by
    simp [coarse, cfgMono, feMono, trunc, sum_range_succ, lin, coeff_X, coeff_one, smul_eq_C_mul]

theorem coarse_history (heap : Ref → Vec) (after : List (Op ℝ[X])) (h : ∀ op ∈ after, ¬ op.PreparesCoarse) :
    CoarseHistory cfgMono coarse (freshWorld heap) [.setupFE, .prepare] after :=
  ⟨freshWorld_fresh heap, (prepareCoarse_ok cfgMono coarse heap).elim fun _ h => congrArg Prod.fst h, h⟩

example (heap : Ref → Vec) := C85_prolongation cfgMono_ok coarse_ok (mono_oneSpace 3) (mono_oneSpace 2)
  coarse_interpolates (coarse_history heap [.getMatrix false, .preTwolvl .rhs 1] (by simp [Op.PreparesCoarse]))
  (.user 0) 1 (by simp [InVec.ref])
example (heap : Ref → Vec) := C85_restriction cfgMono_ok coarse_ok (mono_oneSpace 3) (mono_oneSpace 2)
  coarse_interpolates (coarse_history heap [.getMatrix false, .preTwolvl .rhs 1] (by simp [Op.PreparesCoarse]))
  1 .rhs (by simp [InVec.ref])
example (heap : Ref → Vec) := C85_round_trip cfgMono_ok coarse_ok (mono_oneSpace 3) (mono_oneSpace 2)
  coarse_interpolates (fun a => by
    simp [coarse, feMono, sum_range_succ, lin, coeff_X, coeff_one, smul_eq_C_mul])
  (coarse_history heap [] (by simp)) (.user 0) 1 2 (by simp [InVec.ref]) (by decide)

/-- The well-posed variant, in which the coarse system has exactly one solution. -/
noncomputable def cfgMonoWp : Cfg ℝ[X] := { cfgMono with D := disc false true }

theorem cfgMonoWp_ok : cfgMonoWp.Ok where
  disc := disc_ok _ _
  full := stdSpace_ok _ _
  fullN := rfl
  slab := stdSpace_ok _ _
  slabN := rfl
  coup := stdSpace_ok _ _
  coupN := rfl
  bnd := stdSpace_ok _ _
  bndN := rfl

theorem coarse_okWp : coarse.Ok cfgMonoWp := ⟨stdSpace_ok _ _, rfl⟩

theorem mono_indep : (feMono 2).Indep := by
  have hP : ∀ a : ℕ → ℝ, a 0 • (1 : ℝ[X]) + a 1 • X = 0 → a 0 = 0 ∧ a 1 = 0 := by
    intro a h
    have h0 := congrArg (fun p => p.coeff 0) h
    have h1 := congrArg (fun p => p.coeff 1) h
    simp [coeff_one] at h0 h1
    exact ⟨h0, h1⟩
  intro c a h s hs
  fin_cases c <;> simp [FE.m, FE.basis, feMono, sum_range_succ] at h hs <;> obtain ⟨h0, h1⟩ := hP a h <;>
    interval_cases s <;> assumption

/-- An exact coarse solver for the well-posed example: all hypotheses of `C85_q_op` can be met together. -/
example (heap : Ref → Vec) : ∃ f : Vec → Py Vec,
    (runOp cfgMonoWp (.qOp .rhs 1) (runOps cfgMonoWp [.setupFE, .prepare, .prepareCoarse coarse,
      .setSolverCoarse (solverOf f)] (freshWorld heap))).1 = .ok () := by
  obtain ⟨w', h⟩ := prepareCoarse_ok cfgMonoWp coarse heap
  obtain ⟨A, w₁, h1, hD⟩ := C77_last_mesh cfgMonoWp_ok coarse_okWp _ w' h [] (by simp)
  have hu := C77_uniquely_solvable cfgMonoWp_ok coarse_okWp polySpace_psd polySpace_definite
    (disc_positive false true) rfl mono_indep _ w' h h1
  choose g hg using hu
  refine ⟨fun r => .ok (g (trunc coarse.full.size r)), ?_⟩
  have hh : CoarseHistory cfgMonoWp coarse (freshWorld heap) [.setupFE, .prepare]
      [.setSolverCoarse (solverOf fun r => .ok (g (trunc coarse.full.size r)))] :=
    ⟨freshWorld_fresh heap, congrArg Prod.fst h, by simp [Op.PreparesCoarse]⟩
  refine (C85_q_op cfgMonoWp_ok coarse_okWp (mono_oneSpace 3) (mono_oneSpace 2) coarse_interpolates hh
    (f := fun r => .ok (g (trunc coarse.full.size r))) ?_ (fun r => ⟨_, rfl⟩) ⟨solverOf _, by simp; rfl⟩ ?_ ?_ .rhs 1).1
  · intro b b' hb
    have : trunc coarse.full.size b = trunc coarse.full.size b' := by
      funext d
      unfold trunc
      split
      · exact hb d (by assumption)
      · rfl
    simp only [this]
  · intro s hs
    simp at hs
    subst hs
    exact solverOf_computes _ _
  · intro A' w₂ hA'
    have e1 : w'.obj.coarseMat = some A := Except.ok.inj (congrArg Prod.fst h1)
    have e2 : (prepareCoarse cfgMonoWp coarse (runOps cfgMonoWp [.setupFE, .prepare] (freshWorld heap))).2.obj.coarseMat
        = some A' := Except.ok.inj (congrArg Prod.fst hA')
    rw [h, e1] at e2
    cases Option.some.inj e2
    intro r u hu e he
    cases hu
    rw [(hg _).1 e he, trunc, if_pos (by rw [← hD.1]; exact he)]

end Example
end Dxss
