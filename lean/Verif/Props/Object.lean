import Verif.Lemmas.Frame
import Verif.Props.Precond
import Verif.Props.MatrixFree

/-!
# Properties C27–C34: histories of calls on one object

`runOps C ops w₀` is the state after the calls `ops` (the caller catches exceptions).  External
(DOLFINx/PETSc) steps fail according to the arbitrary schedule `w₀.sched`; `w₀.NoFail` says that none
fails.  `w₀.Fresh` is a new object; the content of all vectors is arbitrary.
-/

namespace Dxss
open Finset
set_option linter.unusedSectionVars false
variable {V : Type} [AddCommGroup V] [Module ℝ V] {C : Cfg V}

section okDecomposition
variable {σ α β : Type}

theorem M.ok_bind {x : M σ α} {f : α → M σ β} {s s' : σ} {b : β} (h : (x >>= f) s = (.ok b, s')) :
    ∃ a s₁, x s = (.ok a, s₁) ∧ f a s₁ = (.ok b, s') := by
  rw [M.bind_run] at h
  rcases hx : x s with ⟨e | a, s₁⟩
  · rw [hx] at h; cases h
  · rw [hx] at h; exact ⟨a, s₁, rfl, h⟩

theorem M.ok_forList_head {l : List α} {a : α} {body : α → M σ Unit} {s s' : σ}
    (h : M.forList (a :: l) body s = (.ok (), s')) : ∃ s₁, body a s = (.ok (), s₁) := by
  obtain ⟨_, s₁, h1, -⟩ := M.ok_bind h
  exact ⟨s₁, h1⟩

theorem M.ok_attr {f : σ → Option α} {e : PyErr} {s s' : σ} {a : α} (h : M.attr f e s = (.ok a, s')) :
    f s = some a ∧ s' = s := by
  rcases hf : f s with _ | b
  · rw [M.attr_none hf] at h; cases h
  · rw [M.attr_some hf] at h; cases h; exact ⟨rfl, rfl⟩

end okDecomposition

/-- A step of the gather loops reads the dof maps and the work vectors. -/
theorem ok_gather {β γ : Type} {w w' : World V} {f : Dofmaps → Py β} {sel : World V → Option Unit} {k : Dofmaps → β → WM V γ}
    {u : γ}
    (h : (do
      let dm ← M.attr (fun w => w.obj.dofmaps) .typeError
      let idx ← M.lift (f dm)
      let _ ← M.attr sel
      k dm idx : WM V γ) w = (.ok u, w')) : w.obj.dofmaps ≠ none ∧ sel w ≠ none := by
  rcases hd : w.obj.dofmaps with _ | dm
  · rw [M.bind_error (M.attr_none (by exact hd))] at h; cases h
  rw [M.bind_ok (M.attr_some (by exact hd))] at h
  rcases hf : f dm with e | idx
  · rw [hf, M.bind_error (M.lift_run _ _)] at h; cases h
  rw [hf, M.bind_ok (M.lift_run _ _)] at h
  rcases hs : sel w with _ | v
  · rw [M.bind_error (M.attr_none hs)] at h; cases h
  exact ⟨by simp, by simp⟩

theorem ok_matMult {w w' : World V} {A : World V → Option Mat} {x y : Ref}
    (h : matMult A x y w = (.ok (), w')) : A w ≠ none := by
  unfold matMult at h
  rcases hs : A w with _ | v
  · rw [M.bind_error (M.attr_none hs)] at h; cases h
  · simp

/-- Every reachable state satisfies the invariant. -/
theorem inv_reach {w₀ : World V} (h : w₀.Fresh) (ops : List (Op V)) : Inv C (runOps C ops w₀) :=
  (hist_ops (b := false) (fun h => by cases h) (Inv.of_fresh h)).1

theorem keep_reach {w : World V} (i : Inv C w) (ops : List (Op V)) : Keep false w (runOps C ops w) :=
  (hist_ops (b := false) (fun h => by cases h) i).2

/-! ## C30 -/

theorem getSpacetimeMatrix_post {p : Bool} {w w₁ : World V} {A : Mat} (h : getSpacetimeMatrix C p w = (.ok A, w₁)) :
    w₁.obj.stMat = some A := by
  unfold getSpacetimeMatrix at h
  rw [M.bind_ok (M.get_run w)] at h
  rcases hm : w.obj.stMat with _ | B
  · simp only [hm] at h
    rw [M.bind_run] at h
    rcases setupSpacetimeMatrix_cases (C := C) p w with ⟨e, he⟩ | he
    · rw [he] at h; cases h
    · rw [he] at h; cases h; rfl
  · simp only [hm] at h; cases h; exact hm

theorem getSpacetimeBfi_post {p : Bool} {w w₁ : World V} {F : List Term} (h : getSpacetimeBfi C p w = (.ok F, w₁)) :
    w₁.obj.stBfi = some F := by
  unfold getSpacetimeBfi at h
  rw [M.bind_ok (M.get_run w)] at h
  rcases hm : w.obj.stBfi with _ | B
  · simp only [hm] at h
    rw [M.bind_run] at h
    rcases setupSpacetimeMatrix_cases (C := C) p w with ⟨e, he⟩ | he
    · rw [he] at h; cases h
    · rw [he] at h; cases h; rfl
  · simp only [hm] at h; cases h; exact hm

/-- C30, space-time matrix: after a successful call, every later call on the object returns the same
matrix, whatever was called (or failed) in between. -/
theorem C30_matrix_stable {w₀ : World V} (h₀ : w₀.Fresh) (before after : List (Op V)) (p p' : Bool) {A : Mat}
    {w₁ : World V} (h : getSpacetimeMatrix C p (runOps C before w₀) = (.ok A, w₁)) :
    getSpacetimeMatrix C p' (runOps C after w₁) = (.ok A, runOps C after w₁) := by
  have i₁ : Inv C w₁ := by
    have := (hist_getSpacetimeMatrix (b := false) p _ (inv_reach (C := C) h₀ before)).1
    rw [h] at this; exact this
  have hk := (keep_reach i₁ after).stMat _ (getSpacetimeMatrix_post h)
  unfold getSpacetimeMatrix
  rw [M.bind_ok (M.get_run _)]
  simp only [hk]; rfl

/-- C30, space-time form. -/
theorem C30_form_stable {w₀ : World V} (h₀ : w₀.Fresh) (before after : List (Op V)) (p p' : Bool) {F : List Term}
    {w₁ : World V} (h : getSpacetimeBfi C p (runOps C before w₀) = (.ok F, w₁)) :
    getSpacetimeBfi C p' (runOps C after w₁) = (.ok F, runOps C after w₁) := by
  have i₁ : Inv C w₁ := by
    have := (hist_getSpacetimeBfi (b := false) p _ (inv_reach (C := C) h₀ before)).1
    rw [h] at this; exact this
  have hk := (keep_reach i₁ after).stBfi _ (getSpacetimeBfi_post h)
  unfold getSpacetimeBfi
  rw [M.bind_ok (M.get_run _)]
  simp only [hk]; rfl

theorem getSpacetimeRhs_post {w w₁ : World V} {r : Ref} (h : getSpacetimeRhs C w = (.ok r, w₁)) :
    r = .rhs ∧ w₁.obj.rhs = some () := by
  unfold getSpacetimeRhs at h
  rw [M.bind_ok (M.get_run w)] at h
  rcases hm : w.obj.rhs with _ | B
  · simp only [hm, Option.isNone_none, if_true] at h
    rw [M.bind_run] at h
    rcases setupRhs_cases (C := C) w with ⟨⟨e, he⟩, -⟩ | ⟨u, v, -, -, -, -, he⟩
    · rw [he] at h; cases h
    · rw [he] at h; cases h; exact ⟨rfl, rfl⟩
  · simp only [hm] at h; cases h; exact ⟨rfl, hm⟩

/-- C30, right-hand side: the returned vector object is the same, and its content is unchanged by any
calls except a direct `setup_rhs()`. -/
theorem C30_rhs_stable {w₀ : World V} (h₀ : w₀.Fresh) (before after : List (Op V))
    (hafter : ∀ op ∈ after, op ≠ .setupRhs) {r : Ref} {w₁ : World V}
    (h : getSpacetimeRhs C (runOps C before w₀) = (.ok r, w₁)) :
    getSpacetimeRhs C (runOps C after w₁) = (.ok r, runOps C after w₁) ∧
      (runOps C after w₁).heap r = w₁.heap r := by
  have i₁ : Inv C w₁ := by
    have := (hist_getSpacetimeRhs (b := false) _ (inv_reach (C := C) h₀ before)).1
    rw [h] at this; exact this
  obtain ⟨rfl, hr⟩ := getSpacetimeRhs_post h
  obtain ⟨-, k⟩ := hist_ops (b := true) (fun _ => hafter) i₁
  obtain ⟨-, k2, k3⟩ := k.rhs rfl (by rw [hr]; simp)
  refine ⟨?_, k3⟩
  unfold getSpacetimeRhs
  rw [M.bind_ok (M.get_run _)]
  simp [k2, hr]

theorem getSpacetimeLfi_post {w w₁ : World V} {F : List (LTerm V)} (h : getSpacetimeLfi C w = (.ok F, w₁)) :
    w₁.obj.lfi = some F := by
  have key : ∀ w' : World V, M.attr (fun w : World V => w.obj.lfi) .attributeError w' = (.ok F, w₁) →
      w₁.obj.lfi = some F := by
    intro w' h'
    rcases hl : w'.obj.lfi with _ | G
    · rw [M.attr_none (by exact hl)] at h'; cases h'
    · rw [M.attr_some (by exact hl)] at h'; cases h'; exact hl
  unfold getSpacetimeLfi at h
  rw [M.bind_ok (M.get_run w)] at h
  rcases hm : w.obj.lfi with _ | B
  · simp only [hm, Option.isNone_none, if_true] at h
    rw [M.bind_run] at h
    rcases hs : setupRhs C w with ⟨e | u, w'⟩
    · rw [hs] at h; cases h
    · rw [hs] at h; exact key _ h
  · simp only [hm] at h; exact key _ h

/-- C30, linear form. -/
theorem C30_linear_form_stable {w₀ : World V} (h₀ : w₀.Fresh) (before after : List (Op V))
    (hafter : ∀ op ∈ after, op ≠ .setupRhs) {F : List (LTerm V)} {w₁ : World V}
    (h : getSpacetimeLfi C (runOps C before w₀) = (.ok F, w₁)) :
    getSpacetimeLfi C (runOps C after w₁) = (.ok F, runOps C after w₁) := by
  have i₁ : Inv C w₁ := by
    have := (hist_getSpacetimeLfi (b := false) _ (inv_reach (C := C) h₀ before)).1
    rw [h] at this; exact this
  have hl := getSpacetimeLfi_post h
  obtain ⟨-, k⟩ := hist_ops (b := true) (fun _ => hafter) i₁
  have hr : w₁.obj.rhs ≠ none := by
    rcases i₁.rhs with ⟨h1, -⟩ | ⟨_, _, -, h2, -⟩
    · rw [hl] at h1; cases h1
    · rw [h2]; simp
  obtain ⟨k1, -, -⟩ := k.rhs rfl hr
  unfold getSpacetimeLfi
  rw [M.bind_ok (M.get_run _)]
  simp only [k1, hl, Option.isNone_some, Bool.false_eq_true, if_false]
  exact M.attr_some (by rw [k1]; exact hl)

/-- C30, slab matrix and form and first-slab matrix and form: what a getter returned once it returns
for ever. -/
theorem C30_slab_matrix_stable {w₀ : World V} (h₀ : w₀.Fresh) (before after : List (Op V)) {A : Mat}
    {w₁ : World V} (h : getSlabMatrix C (runOps C before w₀) = (.ok (some A), w₁)) :
    getSlabMatrix C (runOps C after w₁) = (.ok (some A), runOps C after w₁) := by
  have i₁ : Inv C w₁ := by
    have := (hist_getSlabMatrix (b := false) _ (inv_reach (C := C) h₀ before)).1
    rw [h] at this; exact this
  have hm : w₁.obj.slabMat = some A := by
    unfold getSlabMatrix at h
    rw [M.bind_ok (M.get_run _)] at h
    have fin : ∀ w' : World V, (do
        let w' ← M.get
        return w'.obj.slabMat : WM V _) w' = (.ok (some A), w₁) → w₁.obj.slabMat = some A := fun w' e => by
      have e1 : w' = w₁ := congrArg Prod.snd e
      rw [← e1]; exact Except.ok.inj (congrArg Prod.fst e)
    split at h
    · obtain ⟨_, _, -, h⟩ := M.ok_bind h
      obtain ⟨_, _, -, h⟩ := M.ok_bind h
      exact fin _ h
    · exact fin _ h
  have hk := (keep_reach i₁ after).slabMat _ hm
  unfold getSlabMatrix
  rw [M.bind_ok (M.get_run _)]
  simp only [hk, Option.isNone_some, Bool.false_eq_true, if_false]
  rw [M.bind_ok (M.get_run _), hk]; rfl

theorem C30_slab_form_stable {w₀ : World V} (h₀ : w₀.Fresh) (before after : List (Op V)) {F : List Term}
    {w₁ : World V} (h : getSlabBfi C (runOps C before w₀) = (.ok (some F), w₁)) :
    getSlabBfi C (runOps C after w₁) = (.ok (some F), runOps C after w₁) := by
  have i₁ : Inv C w₁ := by
    have := (hist_getSlabBfi (b := false) _ (inv_reach (C := C) h₀ before)).1
    rw [h] at this; exact this
  have hm : w₁.obj.slabBfi = some F := by
    unfold getSlabBfi at h
    rw [M.bind_ok (M.get_run _)] at h
    have fin : ∀ w' : World V, (do
        let w' ← M.get
        return w'.obj.slabBfi : WM V _) w' = (.ok (some F), w₁) → w₁.obj.slabBfi = some F := fun w' e => by
      have e1 : w' = w₁ := congrArg Prod.snd e
      rw [← e1]; exact Except.ok.inj (congrArg Prod.fst e)
    split at h
    · obtain ⟨_, _, -, h⟩ := M.ok_bind h
      obtain ⟨_, _, -, h⟩ := M.ok_bind h
      exact fin _ h
    · exact fin _ h
  have hk := (keep_reach i₁ after).slabBfi _ hm
  unfold getSlabBfi
  rw [M.bind_ok (M.get_run _)]
  simp only [hk, Option.isNone_some, Bool.false_eq_true, if_false]
  rw [M.bind_ok (M.get_run _), hk]; rfl

theorem C30_first_slab_stable {w₀ : World V} (h₀ : w₀.Fresh) (before after : List (Op V)) :
    let w₁ := runOps C before w₀
    (∀ A, getSlabMatrixFirst w₁ = (.ok (some A), w₁) →
      (getSlabMatrixFirst (runOps C after w₁)).1 = .ok (some A)) ∧
    (∀ F, getSlabBfiFirst w₁ = (.ok (some F), w₁) →
      (getSlabBfiFirst (runOps C after w₁)).1 = .ok (some F)) := by
  have k := keep_reach (inv_reach (C := C) h₀ before) after
  refine ⟨fun A h => ?_, fun F h => ?_⟩
  · have : (runOps C before w₀).obj.firstMat = some A := by
      have := congrArg Prod.fst h; exact Except.ok.inj this
    exact congrArg Except.ok (k.firstMat _ this)
  · have : (runOps C before w₀).obj.firstBfi = some F := by
      have := congrArg Prod.fst h; exact Except.ok.inj this
    exact congrArg Except.ok (k.firstBfi _ this)

/-- C30, operators without a getter: nothing the matrix-free product and the preconditioner use is
ever replaced. -/
theorem C30_operators_stable {w₀ : World V} (h₀ : w₀.Fresh) (before after : List (Op V)) :
    let o₁ := (runOps C before w₀).obj
    let o₂ := (runOps C after (runOps C before w₀)).obj
    (∀ A, o₁.slabMatNJ = some A → o₂.slabMatNJ = some A) ∧ (∀ A, o₁.coupMat = some A → o₂.coupMat = some A) ∧
    (∀ A, o₁.bndMat = some A → o₂.bndMat = some A) ∧ (∀ m, o₁.dofmaps = some m → o₂.dofmaps = some m) :=
  have k := keep_reach (inv_reach (C := C) h₀ before) after
  ⟨k.slabMatNJ, k.coupMat, k.bndMat, k.dofmaps⟩

/-! ## C31 -/

/-- C31: whatever was called, the operators held are those of the configuration. -/
theorem C31_operators_correct {w₀ : World V} (h₀ : w₀.Fresh) (ops : List (Op V)) :
    let o := (runOps C ops w₀).obj
    (∀ A, o.slabMat = some A → A = slabMatOf C true) ∧ (∀ A, o.slabMatNJ = some A → A = slabMatOf C false) ∧
    (∀ A, o.firstMat = some A → A = slabMatOf C C.D.wellPosed) ∧ (∀ A, o.coupMat = some A → A = coupMatOf C) ∧
    (∀ A, o.bndMat = some A → A = bndMatOf C) :=
  have i := inv_reach (C := C) h₀ ops
  ⟨i.slabMat, i.slabMatNJ, i.firstMat, i.coupMat, i.bndMat⟩

/-- The product returns normally only if everything it needs has been set up. -/
theorem ready_of_apply {w w' : World V} (hN : 1 ≤ C.D.N) (i : Inv C w) {vin vout : Ref}
    (h : applySpacetimeMatrix C vin vout w = (.ok (), w')) : MfReady C w.obj := by
  have hobj : ∀ {β : Type} {x : WM V β} (_ : Pres (Rel.touch (V := V) Set.univ) x) {s s' : World V} {b : β},
      x s = (.ok b, s') → s'.obj = s.obj := fun hp s s' b e => by
    have := (hp s).1; rw [e] at this; exact this
  unfold applySpacetimeMatrix slabForM at h
  obtain ⟨_, w1, e1, h⟩ := M.ok_bind h
  have o1 : w1.obj = w.obj := by cases e1; rfl
  obtain ⟨_, w2, h, -⟩ := M.ok_bind h
  obtain ⟨N', hN'⟩ : ∃ N', C.D.N = N' + 1 := ⟨C.D.N - 1, by omega⟩
  have key : ∀ {c : Counters} {n : ℕ} {w1 w2 : World V}, w1.obj = w.obj →
      mfBody C vin vout c n w1 = (.ok (), w2) →
      w2.obj = w.obj ∧ (w.obj.dofmaps ≠ none ∧ w.obj.slabVecs ≠ none ∧ w.obj.slabMatNJ ≠ none) ∧
      (0 < n → w.obj.coupVecs ≠ none ∧ w.obj.coupMat ≠ none) := by
    intro c n w1 w2 o1 hb
    have o2 : w2.obj = w.obj := by
      have hp : Pres (Rel.touch (V := V) Set.univ) (mfBody C vin vout c n) := by
        refine .bind (.blockLoop fun j i l => ?_) fun _ => .bind (touch_matMult (by simp) _ _) fun _ =>
          .bind (.blockLoop fun j i l => ?_) fun _ => .ite ?_ (.pure _)
        · exact .bind (.attr _ _) fun _ => .bind (.lift _) fun _ => .bind (.attr _ _) fun _ =>
            .bind (.lift _) fun _ => touch_copyBlock (by simp) _ _ _
        · exact .bind (.attr _ _) fun _ => .bind (.lift _) fun _ => .bind (.attr _ _) fun _ =>
            .bind (.lift _) fun _ => touch_addBlock (by simp) _ _ _
        · refine .bind (.forList fun j _ => .forList fun i _ => ?_) fun _ => .bind (touch_matMult (by simp) _ _) fun _ =>
            .forList fun j _ => .forList fun i _ => ?_
          · exact .bind (.attr _ _) fun _ => .bind (.lift _) fun _ => .bind (.attr _ _) fun _ =>
              .bind (.lift _) fun _ => touch_copyBlock (by simp) _ _ _
          · exact .bind (.attr _ _) fun _ => .bind (.lift _) fun _ => .bind (.attr _ _) fun _ =>
              .bind (.lift _) fun _ => touch_addBlock (by simp) _ _ _
      exact (hobj hp hb).trans o1
    refine ⟨o2, ?_⟩
    unfold mfBody at hb
    obtain ⟨_, w3, g, hb⟩ := M.ok_bind hb
    have o3 : w3.obj = w.obj := by
      refine (hobj (.blockLoop fun j i l => ?_) g).trans o1
      exact .bind (.attr _ _) fun _ => .bind (.lift _) fun _ => .bind (.attr _ _) fun _ =>
        .bind (.lift _) fun _ => touch_copyBlock (by simp) _ _ _
    obtain ⟨_, w4, mm, hb⟩ := M.ok_bind hb
    have o4 : w4.obj = w.obj := (hobj (touch_matMult (by simp) _ _) mm).trans o3
    obtain ⟨_, w5, sc, hb⟩ := M.ok_bind hb
    have o5 : w5.obj = w.obj := by
      refine (hobj (.blockLoop fun j i l => ?_) sc).trans o4
      exact .bind (.attr _ _) fun _ => .bind (.lift _) fun _ => .bind (.attr _ _) fun _ =>
        .bind (.lift _) fun _ => touch_addBlock (by simp) _ _ _
    refine ⟨?_, fun hn => ?_⟩
    · unfold mfGather blockLoop at g
      obtain ⟨_, g⟩ := M.ok_forList_head g
      rw [List.range_succ_eq_map] at g
      obtain ⟨_, g⟩ := M.ok_forList_head g
      have d12 := ok_gather g
      have d3 := ok_matMult mm
      rw [o1] at d12
      rw [o3] at d3
      exact ⟨d12.1, d12.2, d3⟩
    · rw [if_pos hn] at hb
      obtain ⟨_, w6, g, hb⟩ := M.ok_bind hb
      have o6 : w6.obj = w.obj := by
        refine (hobj (.forList fun j _ => .forList fun i _ => ?_) g).trans o5
        exact .bind (.attr _ _) fun _ => .bind (.lift _) fun _ => .bind (.attr _ _) fun _ =>
          .bind (.lift _) fun _ => touch_copyBlock (by simp) _ _ _
      obtain ⟨_, w7, mm, hb⟩ := M.ok_bind hb
      unfold mfCoupGather at g
      obtain ⟨_, g⟩ := M.ok_forList_head g
      obtain ⟨_, g⟩ := M.ok_forList_head (l := [1]) g
      have d12 := ok_gather g
      have d3 := ok_matMult mm
      rw [o5] at d12
      rw [o6] at d3
      exact ⟨d12.2, d3⟩
  have fill : ∀ {α : Type} {o : Option α} {v : α}, o ≠ none → (∀ x, o = some x → x = v) → o = some v := by
    intro α o v h1 h2
    rcases o with _ | x
    · exact absurd rfl h1
    · rw [h2 x rfl]
  rw [hN', List.range_succ_eq_map] at h
  obtain ⟨_, w3, e3, h⟩ := M.ok_bind h
  obtain ⟨_, w4, e4, e5⟩ := M.ok_bind e3
  obtain ⟨o4, ⟨r1, r2, r3⟩, -⟩ := key o1 e4
  cases e5
  have hc : 1 < C.D.N → w.obj.coupVecs ≠ none ∧ w.obj.coupMat ≠ none := by
    intro h1
    obtain ⟨N'', hN''⟩ : ∃ N'', N' = N'' + 1 := ⟨N' - 1, by omega⟩
    rw [hN'', List.range_succ_eq_map, List.map_cons] at h
    obtain ⟨_, w5, e6, -⟩ := M.ok_bind h
    obtain ⟨_, w6, e7, -⟩ := M.ok_bind e6
    exact (key o4 e7).2.2 (Nat.succ_pos _)
  exact ⟨fill r1 i.dofmaps, fill r2 fun _ _ => rfl, fill r3 i.slabMatNJ, fun h1 => fill (hc h1).1 fun _ _ => rfl,
    fun h1 => fill (hc h1).2 i.coupMat⟩

/-- C31: whatever was called before, whenever the matrix-free product returns normally its result is
the configuration's operator applied to the input. -/
theorem C31_product_correct (hC : C.Ok) (hN : 1 ≤ C.D.N) {w₀ : World V} (h₀ : w₀.Fresh) (ops : List (Op V))
    (x : InVec) (y : ℕ) (hxy : x.ref ≠ .user y) (w' : World V)
    (h : applySpacetimeMatrix C x.ref (.user y) (runOps C ops w₀) = (.ok (), w')) (d : ℕ) (hd : d < C.full.size) :
    let X := (runOps C ops w₀).heap x.ref
    let U := C.full.field C.fe X
    let W := C.full.field C.fe (unitVec d)
    w'.heap (.user y) d + mfMissing C.S C.D U W = (stMatOf C false).mult X d + mfPlaceholders C.S C.D U W := by
  intro X U W
  have hr := ready_of_apply hN (inv_reach h₀ ops) h
  have hx : x.ref ∉ mfScratch := by cases x <;> simp [InVec.ref, mfScratch]
  obtain ⟨w'', e, -, -, -, -, g⟩ := apply_run hC hr hx (show Ref.user y ∉ mfScratch by simp [mfScratch])
  rw [h] at e
  cases e
  rw [g, if_neg hxy]
  exact mfOp_eq hC hN X hd

end Dxss
