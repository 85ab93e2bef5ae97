import Verif.Lemmas.Setup
import Verif.Props.Setup

/-!
# Properties C32 and C33: what a getter returns
-/

namespace Dxss
open Finset
set_option linter.unusedSectionVars false
variable {V : Type} [AddCommGroup V] [Module ℝ V] {C : Cfg V}

/-! ## C32 -/

/-- Requests for the space-time matrix or form with another flag than `p`. -/
def Op.OtherFlag (p : Bool) : Op V → Prop
  | .getMatrix p' | .getBfi p' => p' ≠ p
  | _ => False

/-- The full statement of C32.  It is false, see `C32_violated`. -/
def C32_statement (V : Type) [AddCommGroup V] [Module ℝ V] : Prop :=
  ∀ (C : Cfg V), C.Ok → ∀ (w₀ : World V), w₀.Fresh → ∀ (ops : List (Op V)) (p : Bool) (A : Mat) (w₁ : World V),
    getSpacetimeMatrix C p (runOps C ops w₀) = (.ok A, w₁) → A = stMatOf C p

/-- The cache is empty or holds the operator for `p`. -/
def CacheFor (C : Cfg V) (p : Bool) (w : World V) : Prop :=
  (w.obj.stBfi = none ∧ w.obj.stMat = none) ∨
    (w.obj.stBfi = some (C.D.stForm p) ∧ w.obj.stMat = some (stMatOf C p))

theorem cacheFor_getMatrix {p : Bool} {w : World V} (h : CacheFor C p w) :
    CacheFor C p (getSpacetimeMatrix C p w).2 ∧ ∀ A, (getSpacetimeMatrix C p w).1 = .ok A → A = stMatOf C p := by
  rcases h with ⟨h1, h2⟩ | ⟨h1, h2⟩
  · unfold getSpacetimeMatrix
    rw [M.bind_ok (M.get_run w)]
    simp only [h2]
    rw [M.bind_run]
    rcases setupSpacetimeMatrix_cases (C := C) p w with ⟨e, he⟩ | he
    · have ho := setupSpacetimeMatrix_obj (C := C) p w
      rcases hs : setupSpacetimeMatrix C p w with ⟨e' | a, w'⟩
      · rw [hs] at ho
        exact ⟨.inl ⟨by change w'.obj.stBfi = none; rw [ho]; exact h1, by change w'.obj.stMat = none; rw [ho]; exact h2⟩,
          fun A hA => by cases hA⟩
      · rw [hs] at he; cases he
    · rw [he]
      exact ⟨.inr ⟨rfl, rfl⟩, fun A hA => (Except.ok.inj hA).symm⟩
  · unfold getSpacetimeMatrix
    rw [M.bind_ok (M.get_run w)]
    simp only [h2]
    exact ⟨.inr ⟨h1, h2⟩, fun A hA => (Except.ok.inj hA).symm⟩

theorem cacheFor_getBfi {p : Bool} {w : World V} (h : CacheFor C p w) :
    CacheFor C p (getSpacetimeBfi C p w).2 ∧ ∀ F, (getSpacetimeBfi C p w).1 = .ok F → F = C.D.stForm p := by
  rcases h with ⟨h1, h2⟩ | ⟨h1, h2⟩
  · unfold getSpacetimeBfi
    rw [M.bind_ok (M.get_run w)]
    simp only [h1]
    rw [M.bind_run]
    rcases setupSpacetimeMatrix_cases (C := C) p w with ⟨e, he⟩ | he
    · have ho := setupSpacetimeMatrix_obj (C := C) p w
      rcases hs : setupSpacetimeMatrix C p w with ⟨e' | a, w'⟩
      · rw [hs] at ho
        exact ⟨.inl ⟨by change w'.obj.stBfi = none; rw [ho]; exact h1, by change w'.obj.stMat = none; rw [ho]; exact h2⟩,
          fun A hA => by cases hA⟩
      · rw [hs] at he; cases he
    · rw [he]
      exact ⟨.inr ⟨rfl, rfl⟩, fun A hA => (Except.ok.inj hA).symm⟩
  · unfold getSpacetimeBfi
    rw [M.bind_ok (M.get_run w)]
    simp only [h1]
    exact ⟨.inr ⟨h1, h2⟩, fun A hA => (Except.ok.inj hA).symm⟩

theorem void_snd {σ α : Type} (x : M σ α) (s : σ) : (x.void s).2 = (x s).2 := by
  unfold M.void
  rw [M.bind_run]
  rcases x s with ⟨e | a, s'⟩ <;> rfl

theorem cacheFor_ops {p : Bool} {ops : List (Op V)} (hops : ∀ op ∈ ops, ¬ op.OtherFlag p) {w : World V}
    (h : CacheFor C p w) : CacheFor C p (runOps C ops w) := by
  induction ops generalizing w with
  | nil => exact h
  | cons op ops ih =>
    refine ih (fun o ho => hops o (by simp [ho])) ?_
    have hop := hops op (by simp)
    by_cases hb : op.BuildsMatrix
    · cases op with
      | getMatrix p' =>
        have : p' = p := not_not.1 hop
        subst this
        change CacheFor C p' ((getSpacetimeMatrix C p').void w).2
        rw [void_snd]; exact (cacheFor_getMatrix h).1
      | getBfi p' =>
        have : p' = p := not_not.1 hop
        subst this
        change CacheFor C p' ((getSpacetimeBfi C p').void w).2
        rw [void_snd]; exact (cacheFor_getBfi h).1
      | _ => exact hb.elim
    · have hf := frame_stMat (C := C) op hb w
      have e1 : (runOp C op w).2.obj.stBfi = w.obj.stBfi := congrArg Prod.fst hf
      have e2 : (runOp C op w).2.obj.stMat = w.obj.stMat := congrArg Prod.snd hf
      change CacheFor C p (runOp C op w).2
      unfold CacheFor
      rw [e1, e2]; exact h

/-- C32, what does hold: if all earlier requests for the matrix or the form used the same flag, the
getters return the operator for that flag. -/
theorem C32_same_flag_partial {w₀ : World V} (h₀ : w₀.Fresh) (p : Bool) (ops : List (Op V))
    (hops : ∀ op ∈ ops, ¬ op.OtherFlag p) :
    (∀ A w₁, getSpacetimeMatrix C p (runOps C ops w₀) = (.ok A, w₁) → A = stMatOf C p) ∧
    (∀ F w₁, getSpacetimeBfi C p (runOps C ops w₀) = (.ok F, w₁) → F = C.D.stForm p) := by
  have hc := cacheFor_ops (C := C) hops (w := w₀) (.inl ⟨by rw [h₀], by rw [h₀]⟩)
  exact ⟨fun A w₁ e => (cacheFor_getMatrix hc).2 A (by rw [e]), fun F w₁ e => (cacheFor_getBfi hc).2 F (by rw [e])⟩

/-- The two matrices differ: for at least two slabs and a spatial basis function with non-zero
energy. -/
theorem stMatOf_ne (hC : C.Ok) (hN : 2 ≤ C.D.N) {s : ℕ} (hs : s < C.fe.mP)
    (hpos : C.D.gJump * (1 / C.D.dt * C.S.mass (C.fe.bP s) (C.fe.bP s)
      + C.D.dt * C.S.stiff (C.fe.bP s) (C.fe.bP s)) ≠ 0) : stMatOf C true ≠ stMatOf C false := by
  intro e
  have hq : C.D.q + 1 < C.full.nsub 0 := by
    rw [hC.fullN]; simp only [fullSizes, Matrix.cons_val_zero]; nlinarith
  have hb : ∀ i : ℕ, i < C.full.nsub 0 → C.full.field C.fe (unitVec (C.full.dof 0 i s)) = bump i (C.fe.bP s) := by
    intro i hi
    funext c j
    rw [field_unit hC hi (by exact hs)]; rfl
  have lt : ∀ i : ℕ, i < C.full.nsub 0 → C.full.dof 0 i s < C.full.size := fun i hi => hC.full.lt 0 i s hi hs
  have ent : ∀ (p : Bool) (i j : ℕ), i < C.full.nsub 0 → j < C.full.nsub 0 →
      (stMatOf C p).a (C.full.dof 0 i s) (C.full.dof 0 j s)
        = evalForm C.S C.D.ind (C.D.stForm p) (bump j (C.fe.bP s)) (bump i (C.fe.bP s)) := by
    intro p i j hi hj
    simp only [stMatOf, assemble, lt i hi, if_true, hb i hi, hb j hj]
  have h1 := C13_precond_not_symmetric C.S C.D hC.disc C.D.ind (C.fe.bP s) hN
  have h2 := C13_symmetric C.S C.D hC.disc C.D.ind (bump (C.D.q : ℤ) (C.fe.bP s)) (bump ((C.D.q : ℤ) + 1) (C.fe.bP s))
  have z : ∀ i j : ℤ, placeholder C.S (bump i (C.fe.bP s)) (bump j (C.fe.bP s)) = 0 := fun i j => by
    simp [placeholder, bump]
  rw [z, z] at h2
  have e1 := ent true (C.D.q + 1) C.D.q hq (by omega)
  have e2 := ent true C.D.q (C.D.q + 1) (by omega) hq
  rw [e, ent false (C.D.q + 1) C.D.q hq (by omega)] at e1
  rw [e, ent false C.D.q (C.D.q + 1) (by omega) hq] at e2
  push_cast at e1 e2
  rw [← e1, ← e2] at h1
  apply hpos
  linarith

/-- C32 fails in every configuration with two slabs: after a successful request with one value of
`precond`, a request with the other value returns the wrong matrix, for ever. -/
theorem C32_always_fails (hC : C.Ok) (hN : 2 ≤ C.D.N) {s : ℕ} (hs : s < C.fe.mP)
    (hpos : C.D.gJump * (1 / C.D.dt * C.S.mass (C.fe.bP s) (C.fe.bP s)
      + C.D.dt * C.S.stiff (C.fe.bP s) (C.fe.bP s)) ≠ 0)
    {w₀ : World V} (h₀ : w₀.Fresh) (before after : List (Op V)) (p : Bool) (A : Mat) (w₁ : World V)
    (hbefore : ∀ op ∈ before, ¬ op.OtherFlag p)
    (h : getSpacetimeMatrix C p (runOps C before w₀) = (.ok A, w₁)) :
    ∃ A', getSpacetimeMatrix C (!p) (runOps C after w₁) = (.ok A', runOps C after w₁) ∧ A' ≠ stMatOf C (!p) := by
  refine ⟨A, C30_matrix_stable h₀ before after p (!p) h, ?_⟩
  rw [(C32_same_flag_partial h₀ p before hbefore).1 A w₁ h]
  cases p
  · exact (stMatOf_ne hC hN hs hpos).symm
  · exact stMatOf_ne hC hN hs hpos

/-! ## C33 -/

/-- Calls by which the caller chooses the initial data. -/
def Op.ChoosesInitial : Op V → Prop
  | .setupFE | .setInitial _ _ => True
  | _ => False

/-- The full statement of C33.  It is false, see `C33_violated`. -/
def C33_statement (V : Type) [AddCommGroup V] [Module ℝ V] : Prop :=
  ∀ (C : Cfg V), C.Ok → ∀ (w₀ : World V), w₀.Fresh → w₀.NoFail → ∀ (u v : V) (ops : List (Op V)),
    (∀ op ∈ ops, ¬ op.ChoosesInitial) → ∀ (r : Ref) (w₁ : World V),
    getSpacetimeRhs C (runOps C (.setupFE :: .setInitial u v :: ops) w₀) = (.ok r, w₁) →
      w₁.heap r = rhsVecOf C u v

/-- Without `well_posed` the linear form does not involve the initial data. -/
theorem rhsForm_initial (hwp : C.D.wellPosed = false) (u v : V) :
    C.D.rhsForm C.S C.pts C.ws u v = C.D.rhsForm C.S C.pts C.ws 0 0 := by
  unfold Disc.rhsForm Disc.rhsBody
  simp only [hwp, Bool.and_false, Bool.false_eq_true, if_false]

/-- C33, what does hold (1): with `well_posed=False`, whatever was called (or failed) before, the
right-hand side is the one of the configuration. -/
theorem C33_not_well_posed_partial (hwp : C.D.wellPosed = false) {w₀ : World V} (h₀ : w₀.Fresh) (ops : List (Op V))
    (u v : V) {r : Ref} {w₁ : World V} (h : getSpacetimeRhs C (runOps C ops w₀) = (.ok r, w₁)) :
    w₁.heap r = rhsVecOf C u v := by
  have i₁ : Inv C w₁ := by
    have := (hist_getSpacetimeRhs (b := false) _ (inv_reach (C := C) h₀ ops)).1
    rw [h] at this; exact this
  obtain ⟨rfl, hr⟩ := getSpacetimeRhs_post h
  rcases i₁.rhs with ⟨-, h2⟩ | ⟨u', v', -, -, h3⟩
  · rw [hr] at h2; cases h2
  · rw [h3, rhsVecOf, rhsVecOf, rhsForm_initial hwp u v, rhsForm_initial hwp u' v']

/-- Initial data `u`, `v` are in place and the right-hand side, if built, was built from them. -/
def RhsFrom (C : Cfg V) (u v : V) (w : World V) : Prop :=
  Inv C w ∧ w.obj.u10 = some u ∧ w.obj.u20 = some v ∧ (w.obj.rhs = none ∨ w.heap .rhs = rhsVecOf C u v)

def Rel.rhsFrom (C : Cfg V) (u v : V) : Rel (World V) where
  r w w' := RhsFrom C u v w → RhsFrom C u v w'
  refl _ h := h
  trans h h' i := h' (h i)

/-- Decomposition of `prepare_precondition_gmres` for an arbitrary relation. -/
theorem pres_prepare {R : Rel (World V)} (h1 : Pres R (setupSlabMatrix C true)) (h1' : Pres R (setupSlabMatrix C false))
    (h2 : Pres R (setupCoupling C)) (h3 : Pres R (setupRhs C)) (h4 : Pres R (setupScaledMass C))
    (h5 : Pres R (ext : WM V Unit)) (h6 : Pres R (modObj fun o : Obj V => { o with bRhsPre := some () }))
    (h7 : Pres R (setVec (V := V) .bRhsPre 0)) : Pres R (prepareGmres C) := by
  have k4 : Pres R (do
      let w ← M.get
      if w.obj.bndMat.isNone then setupScaledMass C : WM V Unit) := .bind .get fun _ => .ite h4 (.pure _)
  have k3 : Pres R (do
      let w ← M.get
      if w.obj.rhs.isNone then setupRhs C
      let w ← M.get
      if w.obj.bndMat.isNone then setupScaledMass C : WM V Unit) := by
    refine .bind .get fun _ => ?_
    split
    · exact .bind h3 fun _ => k4
    · exact k4
  have k2 : Pres R (do
      let w ← M.get
      if w.obj.coupMat.isNone then setupCoupling C
      let w ← M.get
      if w.obj.rhs.isNone then setupRhs C
      let w ← M.get
      if w.obj.bndMat.isNone then setupScaledMass C : WM V Unit) := by
    refine .bind .get fun _ => ?_
    split
    · exact .bind h2 fun _ => k3
    · exact k3
  have k1 : Pres R (do
      let w ← M.get
      if w.obj.firstMat.isNone && !C.D.wellPosed then
        setupSlabMatrix C false
      let w ← M.get
      if w.obj.coupMat.isNone then setupCoupling C
      let w ← M.get
      if w.obj.rhs.isNone then setupRhs C
      let w ← M.get
      if w.obj.bndMat.isNone then setupScaledMass C : WM V Unit) := by
    refine .bind .get fun _ => ?_
    split
    · exact .bind h1' fun _ => k2
    · exact k2
  unfold prepareGmres
  refine .bind .get fun _ => ?_
  split
  · exact .bind h1 fun _ => .bind h5 fun _ => .bind h6 fun _ => .bind h7 fun _ => k1
  · exact k1

theorem rhsFrom_setupRhs (u v : V) : Pres (Rel.rhsFrom C u v) (setupRhs C) := by
  intro w ⟨i, h1, h2, h3⟩
  refine ⟨(hist_setupRhs (C := C) w i).1, ?_⟩
  rcases setupRhs_cases (C := C) w with ⟨-, ho, hh, -, -⟩ | ⟨u', v', e1, e2, -, -, he⟩
  · rw [ho, hh]; exact ⟨h1, h2, h3⟩
  · rw [h1] at e1; rw [h2] at e2; cases e1; cases e2
    rw [he]
    exact ⟨h1, h2, .inr (Function.update_self (Ref.rhs) (rhsVecOf C u v) w.heap)⟩

/-- A call that neither chooses initial data nor builds the right-hand side. -/
theorem rhsFrom_other (u v : V) (op : Op V) (hw : ¬ op.WritesInitial) (hb : ¬ op.BuildsRhs) :
    Pres (Rel.rhsFrom C u v) (runOp C op) := by
  intro w ⟨i, h1, h2, h3⟩
  have hne : op ≠ .setupRhs := by rintro rfl; exact hb trivial
  obtain ⟨i', k⟩ := hist_op (C := C) (b := true) op (fun _ => hne) w i
  have fi := frame_initial (C := C) op hw w
  have fr := frame_rhs (C := C) op hb w
  have a1 : (runOp C op w).2.obj.u10 = w.obj.u10 := congrArg Prod.fst fi
  have a2 : (runOp C op w).2.obj.u20 = w.obj.u20 := congrArg Prod.snd fi
  have a3 : (runOp C op w).2.obj.rhs = w.obj.rhs := congrArg Prod.snd fr
  refine ⟨i', a1.trans h1, a2.trans h2, ?_⟩
  by_cases hr : w.obj.rhs = none
  · exact .inl (a3.trans hr)
  · exact .inr ((k.rhs rfl hr).2.2.trans (h3.resolve_left hr))

theorem rhsFrom_op (u v : V) (op : Op V) (hw : ¬ op.WritesInitial) : Pres (Rel.rhsFrom C u v) (runOp C op) := by
  by_cases hb : op.BuildsRhs
  swap
  · exact rhsFrom_other u v op hw hb
  cases op with
  | setupRhs => exact rhsFrom_setupRhs u v
  | getRhs =>
    refine Pres.void ?_
    unfold getSpacetimeRhs
    refine .bind .get fun _ => ?_
    split
    · exact .bind (rhsFrom_setupRhs u v) fun _ => .pure _
    · exact .pure _
  | getLfi =>
    refine Pres.void ?_
    unfold getSpacetimeLfi
    refine .bind .get fun _ => ?_
    split
    · exact .bind (rhsFrom_setupRhs u v) fun _ => .attr _ _
    · exact .attr _ _
  | prepare =>
    refine pres_prepare (rhsFrom_other u v (.setupSlab true) id id) (rhsFrom_other u v (.setupSlab false) id id)
      (rhsFrom_other u v .setupCoupling id id) (rhsFrom_setupRhs u v) (rhsFrom_other u v .setupScaledMass id id) ?_ ?_ ?_
    · exact fun w ⟨i, h⟩ => ⟨(hist_ext (b := false) w i).1, h⟩
    · exact fun w ⟨i, h⟩ => ⟨{ i with }, h⟩
    · exact fun w ⟨i, h1, h2, h3⟩ => ⟨(hist_setVec (b := false) (by simp) 0 w i).1, h1, h2, h3.imp id fun h => by
        change Function.update w.heap .bRhsPre 0 .rhs = _
        rw [Function.update_of_ne (by simp)]; exact h⟩
  | _ => exact hb.elim

theorem rhsFrom_ops (u v : V) {ops : List (Op V)} (hops : ∀ op ∈ ops, ¬ op.WritesInitial) {w : World V}
    (h : RhsFrom C u v w) : RhsFrom C u v (runOps C ops w) := by
  induction ops generalizing w with
  | nil => exact h
  | cons op ops ih => exact ih (fun o ho => hops o (by simp [ho])) (rhsFrom_op u v op (hops op (by simp)) w h)

/-- The state after setting up and choosing initial data. -/
theorem rhsFrom_start {w₀ : World V} (h₀ : w₀.Fresh) (hf : w₀.NoFail) (u v : V) :
    (runOps C [.setupFE, .setInitial u v] w₀).obj = setUpObj C u v := by
  have h := (setupFE_fresh (C := C) h₀ hf).2
  change (setInitial u v (setupFE C w₀).2).2.obj = _
  generalize (setupFE C w₀).2 = w at h
  obtain ⟨o, hp, s, c⟩ := w
  simp only at h
  subst h
  simp [setInitial, M.bind_run, M.attr, setUpObj, modObj, M.modify]

/-- C33, what does hold (2): as long as neither `measured_errors` nor `plot_para_view` is called before
the right-hand side is requested, it is the one of the initial data chosen by the caller. -/
theorem C33_initial_data_partial {w₀ : World V} (h₀ : w₀.Fresh) (hf : w₀.NoFail) (u v : V) (ops : List (Op V))
    (hops : ∀ op ∈ ops, ¬ op.WritesInitial) {r : Ref} {w₁ : World V}
    (h : getSpacetimeRhs C (runOps C (.setupFE :: .setInitial u v :: ops) w₀) = (.ok r, w₁)) :
    w₁.heap r = rhsVecOf C u v := by
  have hs := rhsFrom_start (C := C) h₀ hf u v
  have h1 : RhsFrom C u v (runOps C (.setupFE :: .setInitial u v :: ops) w₀) :=
    rhsFrom_ops u v hops (w := runOps C [.setupFE, .setInitial u v] w₀)
      ⟨inv_reach h₀ _, by rw [hs]; rfl, by rw [hs]; rfl, .inl (by rw [hs]; rfl)⟩
  have h2 := rhsFrom_op (C := C) u v .getRhs id _ h1
  obtain ⟨rfl, hr⟩ := getSpacetimeRhs_post h
  have e : (runOp C .getRhs (runOps C (.setupFE :: .setInitial u v :: ops) w₀)).2 = w₁ := by
    change ((getSpacetimeRhs C).void _).2 = _
    rw [void_snd, h]
  rw [e] at h2
  exact h2.2.2.2.resolve_left (by rw [hr]; simp)

/-- Loading a vector for error measurement or plotting. -/
theorem loadFinal_run {w : World V} (hN : 1 ≤ C.D.N) (hd : w.obj.dofmaps = some (mkDofmaps C)) (x : Ref) :
    loadFinal C x w = (.ok (), { w with
      heap := Function.update w.heap .uh (w.heap x)
      obj := { w.obj with
        u10 := some (nodeAt C.fe (w.heap x) (C.full.collapse 0 ((C.D.q + 1) * C.D.N - 1)))
        u20 := some (nodeAt C.fe (w.heap x) (C.full.collapse 1 ((C.D.q + 1) * C.D.N - 1))) } }) := by
  have hlen : ∀ j, pyIdx ((mkDofmaps C).full j) (-1)
      = .ok (C.full.collapse j ((C.D.timeOrder j + 1) * C.D.N - 1)) := by
    intro j
    have e : (mkDofmaps C).full j = (List.range ((C.D.timeOrder j + 1) * C.D.N)).map (C.full.collapse j) :=
      buildDofmapsFull_eq _ _ _
    have hp : 0 < (C.D.timeOrder j + 1) * C.D.N := Nat.mul_pos (Nat.succ_pos _) hN
    rw [e]
    generalize (C.D.timeOrder j + 1) * C.D.N = m at hp
    obtain ⟨m, rfl⟩ : ∃ m', m = m' + 1 := ⟨m - 1, by omega⟩
    simp [pyIdx, pyGet?]
  have h0 := hlen 0
  have h1 := hlen 1
  simp only [Disc.timeOrder, Matrix.cons_val_zero, Matrix.cons_val_one] at h0 h1
  simp [loadFinal, M.bind_run, M.attr, hd, getVec, setVec, M.modify, M.lift, h0, h1, modObj]

/-- `measured_errors` and `plot_para_view` replace the initial data by the top values of the vector
they are given. -/
theorem C33_overwritten {w : World V} (hN : 1 ≤ C.D.N) (hd : w.obj.dofmaps = some (mkDofmaps C)) (x : InVec)
    (op : Op V) (hop : op = .errors x ∨ op = .paraView x) :
    (runOp C op w).2.obj.u10 = some (nodeAt C.fe (w.heap x.ref) (C.full.collapse 0 ((C.D.q + 1) * C.D.N - 1))) ∧
    (runOp C op w).2.obj.u20 = some (nodeAt C.fe (w.heap x.ref) (C.full.collapse 1 ((C.D.q + 1) * C.D.N - 1))) := by
  rcases hop with rfl | rfl
  · have hp : Pres (Rel.frame fun o : Obj V => (o.u10, o.u20)) (do
        ext
        let u10 ← M.attr (fun w => w.obj.u10)
        let l2T := Real.sqrt (sqErr C.S u10 (C.D.sol C.T))
        let acc ← M.forAcc (List.range C.D.N) ⟨0, [], [], 0⟩ (errBody C)
        let mu ← M.lift (pyMax acc.su)
        let mut_ ← M.lift (pyMax acc.sut)
        let r ← M.lift (mathSqrt acc.total)
        return ⟨l2T, mu, mut_, r⟩ : WM V ErrDict) := by
      exact .bind frame_ext fun _ => .bind (.attr _ _) fun _ => .bind (.forAcc (fun _ _ _ => frame_errBody _ _) _) fun _ =>
        .bind (.lift _) fun _ => .bind (.lift _) fun _ => .bind (.lift _) fun _ => .pure _
    change ((measuredErrors C x.ref).void w).2.obj.u10 = _ ∧ ((measuredErrors C x.ref).void w).2.obj.u20 = _
    rw [void_snd]
    unfold measuredErrors
    rw [M.bind_ok (loadFinal_run hN hd x.ref)]
    have := hp { w with
      heap := Function.update w.heap .uh (w.heap x.ref)
      obj := { w.obj with
        u10 := some (nodeAt C.fe (w.heap x.ref) (C.full.collapse 0 ((C.D.q + 1) * C.D.N - 1)))
        u20 := some (nodeAt C.fe (w.heap x.ref) (C.full.collapse 1 ((C.D.q + 1) * C.D.N - 1))) } }
    exact ⟨congrArg Prod.fst this, congrArg Prod.snd this⟩
  · change (plotParaView C x.ref w).2.obj.u10 = _ ∧ (plotParaView C x.ref w).2.obj.u20 = _
    unfold plotParaView
    rw [M.bind_ok (loadFinal_run hN hd x.ref)]
    exact ⟨rfl, rfl⟩

/-- C33 fails with `well_posed=True`: when errors are measured (or a solution is written to a file)
before the right-hand side is first requested, the right-hand side is built from the final values of
the vector passed, not from the initial data. -/
theorem C33_wrong_data (hN : 1 ≤ C.D.N) {w₀ : World V} (h₀ : w₀.Fresh) (hf : w₀.NoFail) (u v : V) (x : InVec)
    (op : Op V) (hop : op = .errors x ∨ op = .paraView x) {r : Ref} {w₁ : World V}
    (h : getSpacetimeRhs C (runOps C [.setupFE, .setInitial u v, op] w₀) = (.ok r, w₁)) :
    w₁.heap r = rhsVecOf C
      (nodeAt C.fe ((runOps C [.setupFE, .setInitial u v] w₀).heap x.ref)
        (C.full.collapse 0 ((C.D.q + 1) * C.D.N - 1)))
      (nodeAt C.fe ((runOps C [.setupFE, .setInitial u v] w₀).heap x.ref)
        (C.full.collapse 1 ((C.D.q + 1) * C.D.N - 1))) := by
  have hs := rhsFrom_start (C := C) h₀ hf u v
  have ho := C33_overwritten hN (w := runOps C [.setupFE, .setInitial u v] w₀) (by rw [hs]; rfl) x op hop
  have hnr : ¬ op.BuildsRhs := by rcases hop with rfl | rfl <;> exact id
  have hr0 : (runOp C op (runOps C [.setupFE, .setInitial u v] w₀)).2.obj.rhs = none := by
    have := congrArg Prod.snd (frame_rhs (C := C) op hnr (runOps C [.setupFE, .setInitial u v] w₀))
    exact this.trans (by rw [hs]; rfl)
  have h2 := rhsFrom_op (C := C) _ _ .getRhs id _
    (⟨inv_reach h₀ [.setupFE, .setInitial u v, op], ho.1, ho.2, .inl hr0⟩ : RhsFrom C _ _ (runOps C [.setupFE, .setInitial u v, op] w₀))
  obtain ⟨rfl, hr⟩ := getSpacetimeRhs_post h
  have e : (runOp C .getRhs (runOps C [.setupFE, .setInitial u v, op] w₀)).2 = w₁ := by
    change ((getSpacetimeRhs C).void _).2 = _
    rw [void_snd, h]
  rw [e] at h2
  exact h2.2.2.2.resolve_left (by rw [hr]; simp)

/-! ## Non-vacuity and refutations on the concrete configuration -/

namespace Example
open Polynomial

theorem energy_ne (fw wp : Bool) : (cfg fw wp).D.gJump * (1 / (cfg fw wp).D.dt
    * (cfg fw wp).S.mass ((cfg fw wp).fe.bP 0) ((cfg fw wp).fe.bP 0)
      + (cfg fw wp).D.dt * (cfg fw wp).S.stiff ((cfg fw wp).fe.bP 0) ((cfg fw wp).fe.bP 0)) ≠ 0 := by
  have h1 : 0 < polySpace.mass (1 - X) (1 - X) := polySpace_mass_pos fun h => by
    have := congrArg (eval 0) h; simp at this
  have h2 := polySpace_psd.stiff (1 - X)
  simp only [cfg, disc, fe, if_true]
  have : 0 < 1 * (1 / (1 / 2) * polySpace.mass (1 - X) (1 - X) + 1 / 2 * polySpace.stiff (1 - X) (1 - X)) := by
    have : (1 / (1 / 2) : ℝ) = 2 := by norm_num
    rw [this]; linarith
  exact this.ne'

/-- After set-up the matrix getter succeeds. -/
theorem getMatrix_ok {V : Type} [AddCommGroup V] [Module ℝ V] (C : Cfg V) (p : Bool) (heap : Ref → Vec) :
    ∃ w₁, getSpacetimeMatrix C p (runOps C [.setupFE] (freshWorld heap)) = (.ok (stMatOf C p), w₁) := by
  refine ⟨_, Prod.ext ?_ rfl⟩
  simp [runOps, runOp, setupFE, freshWorld, M.bind_run, ext, modObj, setVec, M.modify, getSpacetimeMatrix, M.get,
    setupSpacetimeMatrix, M.attr]
  rfl

theorem getRhs_ok {V : Type} [AddCommGroup V] [Module ℝ V] (C : Cfg V) (w : World V) (hd : w.obj.dofmaps ≠ none) (h1 : w.obj.u10 ≠ none)
    (h2 : w.obj.u20 ≠ none) (hf : w.NoFail) :
    ∃ w₁, getSpacetimeRhs C w = (.ok .rhs, w₁) := by
  obtain ⟨o, hp, s, c⟩ := w
  obtain ⟨d, hd⟩ := Option.ne_none_iff_exists'.1 hd
  obtain ⟨u, h1⟩ := Option.ne_none_iff_exists'.1 h1
  obtain ⟨v, h2⟩ := Option.ne_none_iff_exists'.1 h2
  have h0 : s c = false := hf c le_rfl
  refine ⟨_, Prod.ext ?_ rfl⟩
  simp only at hd h1 h2
  rcases hr : o.rhs with _ | r <;>
  simp [getSpacetimeRhs, setupRhs, M.bind_run, ext, h0, M.attr, M.get, modObj, setVec, M.modify, hd, h1, h2, hr]
  rfl

example (fw wp : Bool) (heap : Ref → Vec) (after : List (Op ℝ[X])) :=
  C32_always_fails (cfg_ok fw wp) (le_refl 2) (s := 0) (Nat.zero_lt_two) (energy_ne fw wp) (freshWorld_fresh heap)
    [.setupFE] after true _ _ (by simp [Op.OtherFlag]) (getMatrix_ok (cfg fw wp) true heap).choose_spec

example (heap : Ref → Vec) := C32_same_flag_partial (C := cfg false true) (freshWorld_fresh heap) true
  (.setupFE :: someOps) (by simp [someOps, Op.OtherFlag])

/-- C32 is false. -/
theorem C32_violated : ¬ C32_statement ℝ[X] := by
  intro hst
  obtain ⟨w₁, h⟩ := getMatrix_ok (cfg false false) true fun _ => 0
  obtain ⟨A', h1, h2⟩ := C32_always_fails (cfg_ok false false) (by decide) (s := 0) (by decide) (energy_ne false false)
    (freshWorld_fresh _) [.setupFE] [] true _ w₁ (by simp [Op.OtherFlag]) h
  refine h2 (hst (cfg false false) (cfg_ok _ _) (freshWorld fun _ => 0) (freshWorld_fresh _)
    [.setupFE, .getMatrix true] false A' w₁ ?_)
  have e : runOps (cfg false false) [.setupFE, .getMatrix true] (freshWorld fun _ => 0) = w₁ := by
    change ((getSpacetimeMatrix (cfg false false) true).void (runOps (cfg false false) [.setupFE] (freshWorld fun _ => 0))).2 = _
    rw [void_snd, h]
  rw [e]; exact h1

/-- The getter succeeds in the situations of C33. -/
theorem getRhs_after {V : Type} [AddCommGroup V] [Module ℝ V] (C : Cfg V) (heap : Ref → Vec) (u v : V)
    (ops : List (Op V)) :
    ∃ w₁, getSpacetimeRhs C (runOps C (.setupFE :: .setInitial u v :: ops) (freshWorld heap)) = (.ok .rhs, w₁) := by
  have hs := rhsFrom_start (C := C) (freshWorld_fresh heap) (freshWorld_noFail heap) u v
  have i := inv_reach (C := C) (freshWorld_fresh heap) [.setupFE, .setInitial u v]
  have k := keep_reach i ops
  have i' := inv_reach (C := C) (freshWorld_fresh heap) (.setupFE :: .setInitial u v :: ops)
  have k' := keep_reach (C := C) (Inv.of_fresh (freshWorld_fresh heap)) (.setupFE :: .setInitial u v :: ops)
  have hd : (runOps C (.setupFE :: .setInitial u v :: ops) (freshWorld heap)).obj.dofmaps = some (mkDofmaps C) :=
    k.dofmaps _ (by rw [hs]; rfl)
  have hi := i'.init (by rw [hd]; simp)
  exact getRhs_ok C _ (by rw [hd]; simp) hi.1 hi.2 (NoFail.of_keep (freshWorld_noFail heap) k')

example (heap : Ref → Vec) (u v : ℝ[X]) :=
  C33_not_well_posed_partial (C := cfg false false) rfl (freshWorld_fresh heap) _ u v
    (getRhs_after (cfg false false) heap u v someOps).choose_spec

example (heap : Ref → Vec) (u v : ℝ[X]) :=
  C33_initial_data_partial (C := cfg false true) (freshWorld_fresh heap) (freshWorld_noFail heap) u v
    [.prepare, .getMatrix false, .pre .rhs 0, .setupRhs] (by simp [Op.WritesInitial])
    (getRhs_after (cfg false true) heap u v [.prepare, .getMatrix false, .pre .rhs 0, .setupRhs]).choose_spec

/-- The right-hand side does depend on the initial velocity. -/
theorem rhs_ne : rhsVecOf (cfg false true) 0 (1 - X) ≠ rhsVecOf (cfg false true) 0 0 := by
  intro e
  have hi : (0 : ℕ) < (cfg false true).full.nsub 1 := by decide
  have hlt := (cfg_ok false true).full.lt 1 0 0 hi (by decide)
  have h1 := congrFun e ((cfg false true).full.dof 1 0 0)
  simp only [rhsVecOf, assembleVec, hlt, if_true] at h1
  have hfield : ∀ c i, (cfg false true).full.field (cfg false true).fe (unitVec ((cfg false true).full.dof 1 0 0)) c i
      = if c = 1 ∧ i = 0 then 1 - X else 0 := fun c i => by
    rw [field_unit (cfg_ok false true) hi (by decide)]; rfl
  have h1' : 0 < polySpace.mass (1 - X) (1 - X) := polySpace_mass_pos fun h => by
    have := congrArg (eval 0) h; simp at this
  simp only [Disc.rhsForm, evalLin_cons, evalLin_slabLoop, Disc.rhsBody] at h1
  simp [cfg, disc, Finset.sum_range_succ, evalLin_nil, LTerm.eval, SOp.eval, at_, Operand.eval] at h1
  have hf := hfield 1 0
  simp only [cfg, and_self, if_true] at hf
  rw [hf] at h1
  have e2 : polySpace.mass (1 - X) (1 - X) = polySpace.mass 1 (1 - X) - polySpace.mass X (1 - X) := by
    rw [map_sub polySpace.mass 1 X, LinearMap.sub_apply]
  linarith

example (heap : Ref → Vec) (u v : ℝ[X]) (x : InVec) :=
  C33_wrong_data (C := cfg false true) (by decide) (freshWorld_fresh heap) (freshWorld_noFail heap) u v x (.errors x)
    (.inl rfl) (getRhs_after (cfg false true) heap u v [.errors x]).choose_spec

/-- C33 is false: the caller sets an initial velocity, measures the errors of the zero vector and asks
for the right-hand side. -/
theorem C33_violated : ¬ C33_statement ℝ[X] := by
  intro h
  obtain ⟨w₁, hw⟩ := getRhs_after (cfg false true) (fun _ => 0) 0 (1 - X) [.errors (.user 0)]
  have h1 := h (cfg false true) (cfg_ok _ _) (freshWorld fun _ => 0) (freshWorld_fresh _) (freshWorld_noFail _)
    0 (1 - X) [.errors (.user 0)] (by simp [Op.ChoosesInitial]) _ _ hw
  have h2 := C33_wrong_data (C := cfg false true) (by decide) (freshWorld_fresh fun _ => 0) (freshWorld_noFail _)
    0 (1 - X) (.user 0) _ (.inl rfl) hw
  have hz : (runOps (cfg false true) [.setupFE, .setInitial 0 (1 - X)] (freshWorld fun _ => 0)).heap (.user 0) = 0 := by
    simp [runOps, runOp, setupFE, setInitial, freshWorld, M.bind_run, ext, modObj, setVec, M.modify, M.attr]
  have hn : ∀ idx, nodeAt (cfg false true).fe 0 idx = 0 := fun idx => by simp [nodeAt, nodeFun]
  change _ = rhsVecOf _ (nodeAt _ ((runOps (cfg false true) [.setupFE, .setInitial 0 (1 - X)]
    (freshWorld fun _ => 0)).heap (.user 0)) _) (nodeAt _ ((runOps (cfg false true) [.setupFE, .setInitial 0 (1 - X)]
    (freshWorld fun _ => 0)).heap (.user 0)) _) at h2
  rw [hz, hn, hn] at h2
  exact rhs_ne (h1.symm.trans h2)

/-! C30 and C31: concrete histories meeting the hypotheses. -/

example (heap : Ref → Vec) (after : List (Op ℝ[X])) (p' : Bool) :=
  C30_matrix_stable (freshWorld_fresh heap) [.setupFE] after true p'
    (getMatrix_ok (cfg true true) true heap).choose_spec
example (heap : Ref → Vec) (u v : ℝ[X]) :=
  C30_rhs_stable (freshWorld_fresh heap) (.setupFE :: .setInitial u v :: []) someOps (by simp [someOps])
    (getRhs_after (cfg false true) heap u v []).choose_spec

theorem getSlabMatrix_ok (C : Cfg ℝ[X]) (heap : Ref → Vec) :
    ∃ w₁, getSlabMatrix C (runOps C [.setupFE] (freshWorld heap)) = (.ok (some (slabMatOf C true)), w₁) := by
  obtain ⟨w₁, -, h, -⟩ := early_slab_run (C := C) (w := runOps C [.setupFE] (freshWorld heap))
    (setupFE_fresh (freshWorld_fresh heap) (freshWorld_noFail heap)).2
    (NoFail.of_keep (freshWorld_noFail heap) (keep_reach (C := C) (Inv.of_fresh (freshWorld_fresh heap)) [.setupFE]))
  exact ⟨w₁, h⟩

example (heap : Ref → Vec) :=
  C30_slab_matrix_stable (freshWorld_fresh heap) [.setupFE] someOps (getSlabMatrix_ok (cfg true false) heap).choose_spec

theorem ok_exists {σ : Type} {x : M σ Unit} {s : σ} (h : (x s).1 = .ok ()) : ∃ s', x s = (.ok (), s') :=
  ⟨_, Prod.ext h rfl⟩

/-- The product does return normally after such a history. -/
theorem apply_ok (heap : Ref → Vec) (x : InVec) (y : ℕ) :
    ∃ w', applySpacetimeMatrix (cfg false false) x.ref (.user y)
      (runOps (cfg false false) (.setupFE :: .prepare :: someOps) (freshWorld heap)) = (.ok (), w') :=
  ok_exists (C27_documented_sequence (cfg_ok false false) rfl rfl (freshWorld_fresh heap)
    (freshWorld_noFail heap) someOps (someOps_set _) x y).1

example (heap : Ref → Vec) (d : ℕ) (hd : d < (cfg false false).full.size) :=
  C31_product_correct (cfg_ok false false) (by decide) (freshWorld_fresh heap) (.setupFE :: .prepare :: someOps)
    .rhs 1 (by simp [InVec.ref]) _ (apply_ok heap .rhs 1).choose_spec d hd

end Example
end Dxss
