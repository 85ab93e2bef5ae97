import Verif.Model.History
import Verif.Lemmas.Monad

/-! # Relations preserved by every computation step -/

namespace Dxss
set_option linter.unusedSectionVars false

/-- A preorder on states. -/
structure Rel (σ : Type) where
  r : σ → σ → Prop
  refl : ∀ s, r s s
  trans : ∀ {a b c}, r a b → r b c → r a c

/-- The computation relates its initial and final state, also when it raises. -/
def Pres {σ α : Type} (R : Rel σ) (x : M σ α) : Prop := ∀ s, R.r s (x s).2

namespace Pres
variable {σ α β : Type} {R : Rel σ}

theorem bind {x : M σ α} {f : α → M σ β} (hx : Pres R x) (hf : ∀ a, Pres R (f a)) :
    Pres R (x >>= f) := by
  intro s
  rw [M.bind_run]
  have h1 := hx s
  rcases h : x s with ⟨e | a, s'⟩
  · rw [h] at h1; exact h1
  · rw [h] at h1; exact R.trans h1 (hf a s')

theorem of_same {x : M σ α} (h : ∀ s, (x s).2 = s) : Pres R x := fun s => by rw [h]; exact R.refl s
theorem pure (a : α) : Pres R (pure a : M σ α) := of_same fun _ => rfl
theorem get : Pres R (M.get : M σ σ) := of_same fun _ => rfl
theorem lift (x : Py α) : Pres R (M.lift x : M σ α) := of_same fun _ => rfl
theorem raise (e : PyErr) : Pres R (M.raise e : M σ α) := of_same fun _ => rfl
theorem attr (f : σ → Option α) (e : PyErr) : Pres R (M.attr f e) := of_same fun s => by
  unfold M.attr; split <;> rfl
theorem modify {f : σ → σ} (h : ∀ s, R.r s (f s)) : Pres R (M.modify f) := h

theorem ite {c : Prop} [Decidable c] {x y : M σ α} (hx : Pres R x) (hy : Pres R y) :
    Pres R (if c then x else y) := by split <;> assumption

theorem forList {l : List α} {body : α → M σ Unit} (h : ∀ a ∈ l, Pres R (body a)) :
    Pres R (M.forList l body) := by
  induction l with
  | nil => exact pure ()
  | cons a l ih =>
    rw [M.forList_cons]
    exact bind (h a (by simp)) fun _ => ih fun b hb => h b (by simp [hb])

theorem forAcc {l : List α} {body : β → α → M σ β} (h : ∀ b, ∀ a ∈ l, Pres R (body b a)) :
    ∀ b, Pres R (M.forAcc l b body) := by
  induction l with
  | nil => exact fun b => pure b
  | cons a l ih =>
    intro b
    exact bind (h b a (by simp)) fun b' => ih (fun b a ha => h b a (by simp [ha])) b'

theorem slabForM {q qs N : ℕ} {body : Counters → ℕ → M σ Unit} (h : ∀ c n, Pres R (body c n)) :
    Pres R (Dxss.slabForM q qs N body) :=
  bind (forAcc (fun c n _ => bind (h c n) fun _ => pure _) _) fun _ => pure _

theorem blockLoop {V : Type} [AddCommGroup V] [Module ℝ V] {D : Disc V} {c : Counters}
    {body : Fin 4 → ℤ → ℕ → M σ Unit} (h : ∀ j i l, Pres R (body j i l)) :
    Pres R (Dxss.blockLoop D c body) :=
  forList fun _ _ => forList fun _ _ => h _ _ _

theorem void {x : M σ α} (h : Pres R x) : Pres R x.void := bind h fun _ => pure _

end Pres

/-! ### Computations that leave the object alone -/

variable {V : Type} [AddCommGroup V] [Module ℝ V]

/-- Nothing changes but the content of vectors in `A` and the clock. -/
def Rel.touch (A : Set Ref) : Rel (World V) where
  r w w' := w'.obj = w.obj ∧ w'.sched = w.sched ∧ w.clock ≤ w'.clock ∧ ∀ r ∉ A, w'.heap r = w.heap r
  refl _ := ⟨rfl, rfl, le_rfl, fun _ _ => rfl⟩
  trans h h' := ⟨h'.1.trans h.1, h'.2.1.trans h.2.1, h.2.2.1.trans h'.2.2.1,
    fun r hr => (h'.2.2.2 r hr).trans (h.2.2.2 r hr)⟩

variable {A : Set Ref}

theorem touch_setVec {r : Ref} (h : r ∈ A) (v : Vec) : Pres (Rel.touch (V := V) A) (setVec r v) :=
  Pres.modify fun w => ⟨rfl, rfl, le_rfl, fun r' h' => Function.update_of_ne (fun e => h' (by rw [e]; exact h)) _ _⟩
theorem touch_getVec (r : Ref) : Pres (Rel.touch (V := V) A) (getVec r) := Pres.of_same fun _ => rfl
theorem touch_ext : Pres (Rel.touch (V := V) A) ext :=
  fun _ => ⟨rfl, rfl, Nat.le_succ _, fun _ _ => rfl⟩
theorem touch_copyBlock {dst : Ref} (h : dst ∈ A) (i : List ℕ) (src : Ref) (i' : List ℕ) :
    Pres (Rel.touch (V := V) A) (copyBlock dst i src i') :=
  .bind (touch_getVec _) fun _ => .bind (touch_getVec _) fun _ => .bind (.lift _) fun _ => touch_setVec h _
theorem touch_addBlock {dst : Ref} (h : dst ∈ A) (i : List ℕ) (src : Ref) (i' : List ℕ) :
    Pres (Rel.touch (V := V) A) (addBlock dst i src i') :=
  .bind (touch_getVec _) fun _ => .bind (touch_getVec _) fun _ => .bind (.lift _) fun _ => touch_setVec h _
theorem touch_matMult {y : Ref} (h : y ∈ A) (M' : World V → Option Mat) (x : Ref) :
    Pres (Rel.touch (V := V) A) (matMult M' x y) :=
  .bind (.attr _ _) fun _ => .bind (touch_getVec _) fun _ => touch_setVec h _

theorem touch_plot (u : Ref) : Pres (Rel.touch (V := V) A) (plot u) :=
  .bind (.attr _ _) fun _ => .bind (touch_getVec _) fun _ => touch_ext

variable (C : Cfg V)

theorem touch_apply {vin vout : Ref} (h : vout ∈ A)
    (hs : ∀ r ∈ ({.vecSlab1, .vecSlab2, .vecCoupling1, .vecCoupling2} : Set Ref), r ∈ A) :
    Pres (Rel.touch A) (applySpacetimeMatrix C vin vout) := by
  have h1 := hs .vecSlab1 (by simp)
  have h2 := hs .vecSlab2 (by simp)
  have h3 := hs .vecCoupling1 (by simp)
  have h4 := hs .vecCoupling2 (by simp)
  refine .bind (touch_setVec h _) fun _ => .slabForM fun c n => ?_
  refine .bind (.blockLoop fun j i l => ?_) fun _ => .bind (touch_matMult h2 _ _) fun _ =>
    .bind (.blockLoop fun j i l => ?_) fun _ => .ite ?_ (.pure _)
  · exact .bind (.attr _ _) fun _ => .bind (.lift _) fun _ => .bind (.attr _ _) fun _ =>
      .bind (.lift _) fun _ => touch_copyBlock h1 _ _ _
  · exact .bind (.attr _ _) fun _ => .bind (.lift _) fun _ => .bind (.attr _ _) fun _ =>
      .bind (.lift _) fun _ => touch_addBlock h _ _ _
  · refine .bind (.forList fun j _ => .forList fun i _ => ?_) fun _ => .bind (touch_matMult h4 _ _) fun _ =>
      .forList fun j _ => .forList fun i _ => ?_
    · exact .bind (.attr _ _) fun _ => .bind (.lift _) fun _ => .bind (.attr _ _) fun _ =>
        .bind (.lift _) fun _ => touch_copyBlock h3 _ _ _
    · exact .bind (.attr _ _) fun _ => .bind (.lift _) fun _ => .bind (.attr _ _) fun _ =>
        .bind (.lift _) fun _ => touch_addBlock h _ _ _

theorem touch_preGather (b : Ref) {dst : Ref} (h : dst ∈ A) (c : Counters) :
    Pres (Rel.touch A) (preGather C b dst c) :=
  .blockLoop fun _ _ _ => .bind (.attr _ _) fun _ => .bind (.lift _) fun _ => .bind (.lift _) fun _ =>
    touch_addBlock h _ _ _
theorem touch_preWrite {x : Ref} (h : x ∈ A) (c : Counters) : Pres (Rel.touch A) (preWrite C x c) :=
  .blockLoop fun _ _ _ => .bind (.attr _ _) fun _ => .bind (.lift _) fun _ => .bind (.lift _) fun _ =>
    touch_copyBlock h _ _ _
theorem touch_runSolver (h : .uhPre ∈ A) (sel : Obj V → Option Solver) (r : Ref) :
    Pres (Rel.touch A) (runSolver sel r) :=
  .bind (.attr _ _) fun _ => .bind (touch_getVec _) fun _ => .bind (touch_getVec _) fun _ =>
    .bind (touch_setVec h _) fun _ => .lift _
theorem touch_preSolve (h : .uhPre ∈ A) (r : Ref) (n : ℕ) :
    Pres (Rel.touch (V := V) A) (preSolve r n) := by
  unfold preSolve; split <;> exact touch_runSolver h _ _

theorem touch_preImproved {b x : Ref} (h : x ∈ A)
    (hs : ∀ r ∈ ({.bRhsPre, .uhPre, .bndIn, .bndOut} : Set Ref), r ∈ A) :
    Pres (Rel.touch A) (preTimeMarchingImproved C b x) := by
  have h1 := hs .bRhsPre (by simp)
  have h2 := hs .uhPre (by simp)
  have h3 := hs .bndIn (by simp)
  have h4 := hs .bndOut (by simp)
  have key : Pres (Rel.touch A) (do
      let _ ← M.attr (fun w => w.obj.bRhsPre)
      setVec .bRhsPre 0
      slabForM C.D.q C.D.qstar C.D.N (preBody C b x) : WM V Unit) := ?_
  · unfold preTimeMarchingImproved
    split
    · exact .bind (.raise _) fun _ => key
    · exact key
  refine .bind (.attr _ _) fun _ => .bind (touch_setVec h1 _) fun _ => .slabForM fun c n => ?_
  refine .bind (touch_preGather C _ h1 _) fun _ => .bind (touch_preSolve h2 _ _) fun _ =>
    .bind ?_ fun _ => touch_preWrite C h _
  exact .bind (.attr _ _) fun _ => .bind (.attr _ _) fun _ => .bind (touch_setVec h3 _) fun _ =>
    .bind (.lift _) fun _ => .bind (touch_addBlock h3 _ _ _) fun _ => .bind (.lift _) fun _ =>
    .bind (touch_addBlock h3 _ _ _) fun _ => .bind (touch_matMult h4 _ _) fun _ =>
    .bind (touch_setVec h1 _) fun _ => .bind (.lift _) fun _ => .bind (touch_addBlock h1 _ _ _) fun _ =>
    .bind (.lift _) fun _ => touch_addBlock h1 _ _ _

theorem touch_copyTop {dst : Ref} (h : dst ∈ A) (src : Ref) (i : List ℕ) :
    Pres (Rel.touch (V := V) A) (copyTop dst src i) := .bind (touch_getVec _) fun _ => touch_setVec h _

theorem touch_pre {b x : Ref} (h : x ∈ A)
    (hs : ∀ r ∈ ({.lPre, .uhPre, .u10Pre, .u20Pre} : Set Ref), r ∈ A) :
    Pres (Rel.touch A) (preTimeMarching C b x) := by
  have h1 := hs .lPre (by simp)
  have h2 := hs .uhPre (by simp)
  have h3 := hs .u10Pre (by simp)
  have h4 := hs .u20Pre (by simp)
  refine .bind (.attr _ _) fun _ => .slabForM fun c n => ?_
  exact .bind (touch_getVec _) fun _ => .bind (touch_getVec _) fun _ => .bind (touch_setVec h1 _) fun _ =>
    .bind (touch_preGather C _ h1 _) fun _ => .bind (touch_preSolve h2 _ _) fun _ =>
    .bind (.attr _ _) fun _ => .bind (.lift _) fun _ => .bind (touch_copyTop h3 _ _) fun _ =>
    .bind (.lift _) fun _ => .bind (touch_copyTop h4 _ _) fun _ => touch_preWrite C h _

theorem touch_prolongation {xc xf : Ref} (h : xf ∈ A) (h1 : .uNodeFine ∈ A) (h2 : .uNodeCoarse ∈ A) :
    Pres (Rel.touch A) (prolongation C xc xf) :=
  .slabForM fun _ _ => .blockLoop fun _ _ _ => .bind (.attr _ _) fun _ => .bind (.lift _) fun _ =>
    .bind (touch_getVec _) fun _ => .bind (.attr _ _) fun _ => .bind (.lift _) fun _ =>
    .bind (touch_setVec h2 _) fun _ => .bind (touch_setVec h1 _) fun _ => .bind (touch_getVec _) fun _ =>
    .bind (.attr _ _) fun _ => .bind (.lift _) fun _ => .bind (touch_getVec _) fun _ =>
    .bind (.lift _) fun _ => touch_setVec h _

theorem touch_restriction {xc xf : Ref} (h : xc ∈ A) (h1 : .uNodeFine ∈ A) (h2 : .uNodeCoarse ∈ A) :
    Pres (Rel.touch A) (restriction C xc xf) :=
  .slabForM fun _ _ => .blockLoop fun _ _ _ => .bind (.attr _ _) fun _ => .bind (.lift _) fun _ =>
    .bind (touch_getVec _) fun _ => .bind (.attr _ _) fun _ => .bind (.lift _) fun _ =>
    .bind (touch_setVec h1 _) fun _ => .bind (touch_setVec h2 _) fun _ => .bind (touch_getVec _) fun _ =>
    .bind (.attr _ _) fun _ => .bind (.lift _) fun _ => .bind (touch_getVec _) fun _ =>
    .bind (.lift _) fun _ => touch_setVec h _

theorem touch_qOp {xin xout : Ref} (h : xout ∈ A) (h1 : .uNodeFine ∈ A) (h2 : .uNodeCoarse ∈ A)
    (h3 : .tmp1Coarse ∈ A) (h4 : .tmp2Coarse ∈ A) : Pres (Rel.touch A) (qOp C xin xout) :=
  .bind (.attr _ _) fun _ => .bind (touch_restriction C h3 h1 h2) fun _ => .bind (.attr _ _) fun _ =>
    .bind (touch_getVec _) fun _ => .bind (touch_getVec _) fun _ => .bind (touch_setVec h4 _) fun _ =>
    .bind (.lift _) fun _ => touch_prolongation C h h1 h2

theorem touch_errLoad (h0 : .u1Minus ∈ A) (h1 : ∀ j, .u1Slab j ∈ A) (n : ℕ) (i : ℤ) :
    Pres (Rel.touch A) (errLoad C n i) := by
  unfold errLoad
  refine .bind (.attr _ _) fun _ => ?_
  have h : ∀ dm : Dofmaps, Pres (Rel.touch A) (M.forList (List.range (C.D.q + 1)) fun (ell : ℕ) =>
      ((do
        let i ← M.lift (pyIdx (dm.full 0) (i + ell))
        copyTop (.u1Slab ell) .uh i) : WM V Unit)) := fun dm =>
    .forList fun _ _ => .bind (.lift _) fun _ => touch_copyTop (h1 _) _ _
  split
  · exact .bind (.lift _) fun _ => .bind (touch_copyTop h0 _ _) fun _ => h _
  · exact h _

theorem touch_errBody (h0 : .u1Minus ∈ A) (h1 : ∀ j, .u1Slab j ∈ A) (acc : ErrAcc) (n : ℕ) :
    Pres (Rel.touch A) (errBody C acc n) := by
  refine .bind (touch_errLoad C h0 h1 _ _) fun _ => .bind (touch_getVec _) fun _ => .bind .get fun _ =>
    .bind (.forAcc (fun _ _ _ => .bind touch_ext fun _ => .pure _) _) fun _ =>
    .bind (.forAcc (fun _ _ _ => .ite (.bind touch_ext fun _ => .pure _) (.pure _)) _) fun _ => .pure _

end Dxss
