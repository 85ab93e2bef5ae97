import Verif.Lemmas.History
import Verif.Lemmas.MatrixFree
import Mathlib.Logic.Equiv.Basic

/-!
# Renumbering the degrees of freedom

What a change of the numbering of the four mixed spaces does to vectors, matrices, solvers and the object, and a calculus for
running two computations side by side, one in each numbering.
-/

namespace Dxss
open Finset
set_option linter.unusedSectionVars false
variable {V : Type} [AddCommGroup V] [Module ℝ V] {α α' β β' : Type}

/-- The vector in the new numbering: dof `d` becomes dof `e d`. -/
def ren (e : Equiv.Perm ℕ) (x : Vec) : Vec := fun d => x (e.symm d)

theorem ren_apply (e : Equiv.Perm ℕ) (x : Vec) (d : ℕ) : ren e x (e d) = x d := by simp [ren]
theorem ren_refl (x : Vec) : ren (Equiv.refl ℕ) x = x := rfl
theorem ren_zero (e : Equiv.Perm ℕ) : ren e 0 = 0 := rfl
theorem ren_sub (e : Equiv.Perm ℕ) (x y : Vec) : ren e (x - y) = ren e x - ren e y := rfl
theorem ren_add (e : Equiv.Perm ℕ) (x y : Vec) : ren e (x + y) = ren e x + ren e y := rfl
theorem ren_symm (e : Equiv.Perm ℕ) (x : Vec) : ren e.symm (ren e x) = x := by funext d; simp [ren]

def FSpace.renum (L : FSpace) (e : Equiv.Perm ℕ) : FSpace := { L with collapse := fun c i => (L.collapse c i).map e }
def Mat.renum (A : Mat) (e : Equiv.Perm ℕ) : Mat := ⟨A.size, fun d d' => A.a (e.symm d) (e.symm d')⟩
def Solver.renum (s : Solver) (e : Equiv.Perm ℕ) : Solver := fun b x =>
  ((s (ren e.symm b) (ren e.symm x)).1, ren e (s (ren e.symm b) (ren e.symm x)).2)

/-- The numbers `0, …, n-1` are permuted among themselves. -/
def Below (e : Equiv.Perm ℕ) (n : ℕ) : Prop := ∀ d, e d < n ↔ d < n

theorem Below.symm {e : Equiv.Perm ℕ} {n : ℕ} (h : Below e n) (d : ℕ) : e.symm d < n ↔ d < n := by
  rw [← h (e.symm d), e.apply_symm_apply]

/-- A new numbering of each of the four spaces. -/
structure Renum where
  full : Equiv.Perm ℕ
  slab : Equiv.Perm ℕ
  coup : Equiv.Perm ℕ
  bnd : Equiv.Perm ℕ

structure Renum.Fits (ρ : Renum) (C : Cfg V) : Prop where
  full : Below ρ.full C.full.size
  slab : Below ρ.slab C.slab.size
  coup : Below ρ.coup C.coup.size
  bnd : Below ρ.bnd C.bnd.size

def Cfg.renum (C : Cfg V) (ρ : Renum) : Cfg V :=
  { C with full := C.full.renum ρ.full, slab := C.slab.renum ρ.slab, coup := C.coup.renum ρ.coup, bnd := C.bnd.renum ρ.bnd }

def Dofmaps.renum (dm : Dofmaps) (ρ : Renum) : Dofmaps where
  full j := (dm.full j).map (List.map ρ.full)
  coup j := (dm.coup j).map (List.map ρ.coup)
  pre j := (dm.pre j).map (List.map ρ.slab)
  bnd j := (dm.bnd j).map ρ.bnd

def Obj.renum (o : Obj V) (ρ : Renum) : Obj V :=
  { o with
    dofmaps := o.dofmaps.map (·.renum ρ)
    stMat := o.stMat.map (·.renum ρ.full)
    slabMat := o.slabMat.map (·.renum ρ.slab)
    slabMatNJ := o.slabMatNJ.map (·.renum ρ.slab)
    firstMat := o.firstMat.map (·.renum ρ.slab)
    coupMat := o.coupMat.map (·.renum ρ.coup)
    bndMat := o.bndMat.map (·.renum ρ.bnd)
    solverSlab := o.solverSlab.map (·.renum ρ.slab)
    solverFirst := o.solverFirst.map (·.renum ρ.slab) }

/-! ### Assembly -/

section assembly
variable {C : Cfg V} {ρ : Renum}

theorem field_renum {L : FSpace} {fe : FE V} (hL : L.Ok fe.m) (e : Equiv.Perm ℕ) (x : Vec) :
    (L.renum e).field fe (ren e x) = L.field fe x := by
  funext c i
  simp only [FSpace.field]
  change (if 0 ≤ i ∧ i < L.nsub c then _ else _) = _
  split
  · rename_i hi
    refine sum_congr rfl fun s hs => ?_
    congr 1
    have hl : s < (L.collapse c i.toNat).length := by
      rw [hL.len c _ (by omega)]; exact mem_range.1 hs
    simp only [FSpace.dof, FSpace.renum]
    rw [getD_map _ _ hl 0, ren_apply]
  · rfl

theorem unitVec_renum (e : Equiv.Perm ℕ) (d : ℕ) : unitVec d = ren e (unitVec (e.symm d)) := by
  funext i
  simp [unitVec, ren]

theorem assemble_renum (S : Space V) (ind : V) {fe : FE V} {L : FSpace} (hL : L.Ok fe.m) {e : Equiv.Perm ℕ}
    (he : Below e L.size) (F : List Term) :
    assemble S ind fe (L.renum e) F = (assemble S ind fe L F).renum e := by
  unfold assemble Mat.renum
  congr 1
  funext d d'
  rw [unitVec_renum e d, unitVec_renum e d', field_renum hL, field_renum hL]
  by_cases h : d < L.size
  · simp [FSpace.renum, h, (he.symm d).2 h]
  · simp [FSpace.renum, h, mt (he.symm d).1 h]

theorem assembleVec_renum (S : Space V) (ind : V) {fe : FE V} {L : FSpace} (hL : L.Ok fe.m) {e : Equiv.Perm ℕ}
    (he : Below e L.size) (F : List (LTerm V)) :
    assembleVec S ind fe (L.renum e) F = ren e (assembleVec S ind fe L F) := by
  funext d
  unfold assembleVec ren
  rw [unitVec_renum e d, field_renum hL]
  by_cases h : d < L.size
  · simp [FSpace.renum, h, (he.symm d).2 h]
  · simp [FSpace.renum, h, mt (he.symm d).1 h]

theorem mult_renum (A : Mat) {e : Equiv.Perm ℕ} (he : Below e A.size) (x : Vec) : (A.renum e).mult (ren e x) = ren e (A.mult x) := by
  funext d
  simp only [Mat.mult, Mat.renum, ren]
  refine sum_bij (fun d' _ => e.symm d') (fun d' h => mem_range.2 ((he.symm d').2 (mem_range.1 h))) (fun _ _ _ _ h => e.symm.injective h)
    (fun d' h => ⟨e d', mem_range.2 ((he d').2 (mem_range.1 h)), by simp⟩) fun _ _ => rfl

theorem mkDofmaps_renum : mkDofmaps (C.renum ρ) = (mkDofmaps C).renum ρ := by
  simp only [mkDofmaps, Dofmaps.renum, Dofmaps.mk.injEq]
  refine ⟨?_, ?_, ?_, ?_⟩
  · funext j
    change buildDofmapsFull C.D (C.full.renum ρ.full) j = _
    rw [buildDofmapsFull_eq, buildDofmapsFull_eq, List.map_map]
    rfl
  · funext j
    split
    · rw [List.map_map]; rfl
    · rfl
  · funext j; rw [List.map_map]; rfl
  · funext j
    split <;> rfl

end assembly

/-! ### Which numbering a vector has -/

/-- The space a vector belongs to; `other` are vectors of the coarse mesh and of the scalar spaces. -/
inductive Kind
  | full | slab | coup | bnd | other
  deriving DecidableEq

def Renum.perm (ρ : Renum) : Kind → Equiv.Perm ℕ
  | .full => ρ.full
  | .slab => ρ.slab
  | .coup => ρ.coup
  | .bnd => ρ.bnd
  | .other => .refl ℕ

/-- `κ k` is the space of the caller's vector number `k`. -/
def Ref.kind (κ : ℕ → Kind) : Ref → Kind
  | .user k => κ k
  | .rhs | .uh | .tmp _ => .full
  | .vecSlab1 | .vecSlab2 | .bRhsPre | .lPre | .uhPre => .slab
  | .vecCoupling1 | .vecCoupling2 => .coup
  | .bndIn | .bndOut => .bnd
  | _ => .other

/-- Functions of the primal scalar space. -/
def Ref.isNode : Ref → Bool
  | .u10Pre | .u20Pre | .u1Minus | .u1Slab _ => true
  | _ => false

section two
variable (C : Cfg V) (ρ : Renum) (κ : ℕ → Kind)

/-- The contents of a vector in the two numberings. -/
def VRel (r : Ref) (v v' : Vec) : Prop :=
  if r.isNode then ∀ s < C.fe.mP, v' s = v s else v' = ren (ρ.perm (r.kind κ)) v

/-- The tables are those of the configuration and the matrices that are multiplied have its sizes. -/
structure Obj.Sized (o : Obj V) : Prop where
  dm : ∀ a, o.dofmaps = some a → a = mkDofmaps C
  slab : ∀ A, o.slabMatNJ = some A → A.size = C.slab.size
  coup : ∀ A, o.coupMat = some A → A.size = C.coup.size
  bnd : ∀ A, o.bndMat = some A → A.size = C.bnd.size

/-- The two states: first the old, then the new numbering. -/
structure RR (w w' : World V) : Prop where
  obj : w'.obj = w.obj.renum ρ
  heap : ∀ r, VRel C ρ κ r (w.heap r) (w'.heap r)
  sched : w'.sched = w.sched
  clock : w'.clock = w.clock
  ok : w.obj.Sized C

/-- The outcomes of two calls. -/
def Out (Q : α → α' → Prop) : Py α → Py α' → Prop
  | .ok a, .ok a' => Q a a'
  | .error e, .error e' => e = e'
  | _, _ => False

theorem Out.mono {Q R : α → α' → Prop} (h : ∀ a a', Q a a' → R a a') {x : Py α} {x' : Py α'} (hx : Out Q x x') : Out R x x' := by
  rcases x with _ | a <;> rcases x' with _ | a' <;> simp only [Out] at hx ⊢
  · exact hx
  · exact h _ _ hx

theorem Out.eq {x x' : Py α} (h : Out Eq x x') : x' = x := by
  rcases x with _ | a <;> rcases x' with _ | a' <;> simp only [Out] at h <;> rw [h]

/-- Two attributes. -/
def ORel (Q : α → α' → Prop) : Option α → Option α' → Prop
  | some a, some a' => Q a a'
  | none, none => True
  | _, _ => False

theorem ORel.map {g : α → α'} (a : Option α) : ORel (fun a a' => a' = g a) a (a.map g) := by
  cases a
  · trivial
  · rfl

/-- Side by side the two computations have corresponding outcomes and end in corresponding states. -/
def Two (Q : α → α' → Prop) (x : WM V α) (x' : WM V α') : Prop :=
  ∀ w w', RR C ρ κ w w' → Out Q (x w).1 (x' w').1 ∧ RR C ρ κ (x w).2 (x' w').2

variable {C ρ κ} {Q : α → α' → Prop} {Q' : β → β' → Prop}

namespace Two

theorem pure {a : α} {a' : α'} (h : Q a a') : Two C ρ κ Q (Pure.pure a) (Pure.pure a') := fun _ _ r => ⟨h, r⟩
theorem ret {a : α} {a' : α'} (h : Q a a') : Two C ρ κ Q (M.ret a) (M.ret a') := fun _ _ r => ⟨h, r⟩
theorem raise (e : PyErr) : Two C ρ κ Q (M.raise e) (M.raise e) := fun _ _ r => ⟨rfl, r⟩
theorem lift {x : Py α} {x' : Py α'} (h : Out Q x x') : Two C ρ κ Q (M.lift x) (M.lift x') := fun _ _ r => ⟨h, r⟩

theorem bind {x : WM V α} {x' : WM V α'} {f : α → WM V β} {f' : α' → WM V β'} (hx : Two C ρ κ Q x x')
    (hf : ∀ a a', Q a a' → Two C ρ κ Q' (f a) (f' a')) : Two C ρ κ Q' (x >>= f) (x' >>= f') := by
  intro w w' h
  obtain ⟨h1, h2⟩ := hx w w' h
  rw [M.bind_run, M.bind_run]
  rcases e : x w with ⟨r, v⟩
  rcases e' : x' w' with ⟨r', v'⟩
  rw [e, e'] at h1 h2
  rcases r with _ | a <;> rcases r' with _ | a' <;> simp only [Out] at h1
  · exact ⟨h1, h2⟩
  · exact hf a a' h1 v v' h2

theorem mono {R : α → α' → Prop} {x : WM V α} {x' : WM V α'} (hx : Two C ρ κ Q x x') (h : ∀ a a', Q a a' → R a a') :
    Two C ρ κ R x x' := fun w w' r => by
  obtain ⟨h1, h2⟩ := hx w w' r
  exact ⟨h1.mono h, h2⟩

theorem bindGet {f f' : World V → WM V β} {R : β → β → Prop} (h : ∀ w w', RR C ρ κ w w' → Two C ρ κ R (f w) (f' w')) :
    Two C ρ κ R (M.get >>= f) (M.get >>= f') := fun w w' r => h w w' r w w' r

theorem ext : Two C ρ κ Eq Dxss.ext Dxss.ext := by
  intro w w' h
  refine ⟨?_, h.obj, h.heap, h.sched, ?_, h.ok⟩
  · simp only [Dxss.ext, h.sched, h.clock]
    cases w.sched w.clock <;> rfl
  · simp only [Dxss.ext, h.clock]

theorem attr {f : World V → Option α} {f' : World V → Option α'} (e : PyErr) (h : ∀ w w', RR C ρ κ w w' → ORel Q (f w) (f' w')) :
    Two C ρ κ Q (M.attr f e) (M.attr f' e) := by
  intro w w' r
  have h1 := h w w' r
  unfold M.attr
  rcases e : f w with _ | a <;> rcases e' : f' w' with _ | a' <;> rw [e, e'] at h1 <;> simp only [ORel] at h1
  · exact ⟨rfl, r⟩
  · exact ⟨h1, r⟩

/-- An attribute that is renumbered by `g`. -/
theorem attrMap {f : World V → Option α} {f' : World V → Option α'} {g : α → α'} (e : PyErr)
    (h : ∀ w w', RR C ρ κ w w' → f' w' = (f w).map g) : Two C ρ κ (fun a a' => a' = g a) (M.attr f e) (M.attr f' e) :=
  attr e fun w w' r => h w w' r ▸ ORel.map _

/-- An attribute that is not renumbered. -/
theorem attrSame {f : Obj V → Option α} (e : PyErr) (h : ∀ o : Obj V, f (o.renum ρ) = f o) :
    Two C ρ κ Eq (M.attr (fun w => f w.obj) e) (M.attr (fun w => f w.obj) e) := by
  refine attr e fun w w' r => ?_
  rw [r.obj, h]
  cases f w.obj
  · trivial
  · rfl

theorem attrDm (e : PyErr) : Two C ρ κ (fun a a' => a = mkDofmaps C ∧ a' = (mkDofmaps C).renum ρ)
    (M.attr (fun w => w.obj.dofmaps) e) (M.attr (fun w => w.obj.dofmaps) e) := by
  refine attr e fun w w' r => ?_
  have h : w'.obj.dofmaps = w.obj.dofmaps.map (·.renum ρ) := by rw [r.obj]; rfl
  rw [h]
  rcases h : w.obj.dofmaps with _ | a
  · trivial
  · obtain rfl := r.ok.dm a h
    exact ⟨rfl, rfl⟩

theorem modObj {f f' : Obj V → Obj V} (h : ∀ o : Obj V, f' (o.renum ρ) = (f o).renum ρ)
    (hd : ∀ o : Obj V, o.Sized C → (f o).Sized C) : Two C ρ κ Eq (Dxss.modObj f) (Dxss.modObj f') := fun w w' r =>
  ⟨rfl, by change f' w'.obj = _; rw [r.obj]; exact h _, r.heap, r.sched, r.clock, hd _ r.ok⟩

theorem setVec {r : Ref} {v v' : Vec} (h : VRel C ρ κ r v v') : Two C ρ κ Eq (Dxss.setVec r v) (Dxss.setVec r v') := fun w w' R =>
  ⟨rfl, R.obj, fun r' => by
    change VRel C ρ κ r' (Function.update w.heap r v r') (Function.update w'.heap r v' r')
    rcases eq_or_ne r' r with rfl | hne
    · simpa using h
    · rw [Function.update_of_ne hne, Function.update_of_ne hne]
      exact R.heap r', R.sched, R.clock, R.ok⟩

theorem getVec (r : Ref) : Two C ρ κ (VRel C ρ κ r) (Dxss.getVec r) (Dxss.getVec r) := fun _ _ h => ⟨h.heap r, h⟩

theorem forList {γ : Type} {l : List γ} {b b' : γ → WM V Unit} (h : ∀ a, Two C ρ κ Eq (b a) (b' a)) :
    Two C ρ κ Eq (M.forList l b) (M.forList l b') := by
  induction l with
  | nil => exact .ret rfl
  | cons a l ih => exact .bind (h a) fun _ _ _ => ih

theorem forAcc {γ : Type} {l : List γ} {b : β → γ → WM V β} {b' : β' → γ → WM V β'}
    (h : ∀ a a' c, Q' a a' → Two C ρ κ Q' (b a c) (b' a' c)) {a : β} {a' : β'} (h0 : Q' a a') :
    Two C ρ κ Q' (M.forAcc l a b) (M.forAcc l a' b') := by
  induction l generalizing a a' with
  | nil => exact .ret h0
  | cons c l ih => exact .bind (h a a' c h0) fun _ _ h1 => ih h1

theorem void {x : WM V α} {x' : WM V α'} (h : Two C ρ κ Q x x') : Two C ρ κ Eq x.void x'.void :=
  .bind h fun _ _ _ => .pure rfl

theorem ite {c : Prop} [Decidable c] {x y : WM V α} {x' y' : WM V α'} (hx : Two C ρ κ Q x x') (hy : Two C ρ κ Q y y') :
    Two C ρ κ Q (if c then x else y) (if c then x' else y') := by
  split
  · exact hx
  · exact hy

theorem blockLoop {D : Disc V} {c : Counters} {b b' : Fin 4 → ℤ → ℕ → WM V Unit} (h : ∀ j i e, Two C ρ κ Eq (b j i e) (b' j i e)) :
    Two C ρ κ Eq (Dxss.blockLoop D c b) (Dxss.blockLoop D c b') := .forList fun _ => .forList fun _ => h _ _ _

theorem slabForM {q qs N : ℕ} {b b' : Counters → ℕ → WM V Unit} (h : ∀ c n, Two C ρ κ Eq (b c n) (b' c n)) :
    Two C ρ κ Eq (Dxss.slabForM q qs N b) (Dxss.slabForM q qs N b') :=
  .bind (Q := Eq) (.forAcc (Q' := Eq) (fun a a' c e => by subst e; exact .bind (h _ _) fun _ _ _ => .pure rfl) rfl)
    fun _ _ _ => .pure rfl

end Two

/-! ### Blocks -/

theorem pyGet?_map {l : List α} (g : α → α') (i : ℤ) : pyGet? (l.map g) i = (pyGet? l i).map g := by
  unfold pyGet?
  rw [List.length_map, List.getElem?_map, List.getElem?_map]
  split_ifs <;> rfl

theorem mem_of_pyGet? {l : List α} {i : ℤ} {a : α} (h : pyGet? l i = some a) : a ∈ l := by
  unfold pyGet? at h
  split_ifs at h
  · exact List.mem_of_getElem? h
  · exact List.mem_of_getElem? h

theorem pyIdx_map {l : List α} (g : α → α') (i : ℤ) : Out (fun a a' => a ∈ l ∧ a' = g a) (pyIdx l i) (pyIdx (l.map g) i) := by
  unfold pyIdx
  rw [pyGet?_map]
  rcases h : pyGet? l i with _ | a
  · rfl
  · exact ⟨mem_of_pyGet? h, rfl⟩

theorem scatter_renum (e : Equiv.Perm ℕ) (a : Vec) (idx : List ℕ) (v : List ℝ) :
    scatter (ren e a) (idx.map e) v = ren e (scatter a idx v) := by
  induction idx generalizing a v with
  | nil => rfl
  | cons i l ih =>
    cases v with
    | nil => rfl
    | cons x v =>
      simp only [List.map_cons, scatter]
      rw [← ih]
      congr 1
      funext d
      simp only [ren, Function.update_apply]
      by_cases hd : d = e i
      · simp [hd]
      · rw [if_neg hd, if_neg]
        intro h; exact hd (by rw [← h]; simp)

theorem npAssign_renum (e : Equiv.Perm ℕ) (a : Vec) (idx : List ℕ) (v : List ℝ) :
    Out (fun x x' => x' = ren e x) (npAssign a idx v) (npAssign (ren e a) (idx.map e) v) := by
  unfold npAssign
  rw [List.length_map]
  split
  · exact scatter_renum e a idx v
  · rcases v with _ | ⟨x, _ | ⟨y, v⟩⟩
    · rfl
    · exact scatter_renum e a idx _
    · rfl

theorem map_ren (e : Equiv.Perm ℕ) (v : Vec) (idx : List ℕ) : (idx.map e).map (ren e v) = idx.map v := by
  rw [List.map_map]
  refine List.map_congr_left fun d _ => ren_apply e v d

theorem npAddAssign_renum (e : Equiv.Perm ℕ) (a : Vec) (idx : List ℕ) (v : List ℝ) :
    Out (fun x x' => x' = ren e x) (npAddAssign a idx v) (npAddAssign (ren e a) (idx.map e) v) := by
  unfold npAddAssign
  rw [List.length_map, map_ren]
  split
  · exact npAssign_renum e a idx _
  · rcases v with _ | ⟨x, _ | ⟨y, v⟩⟩
    · rfl
    · have : (idx.map e).map (fun i => ren e a i + x) = idx.map fun i => a i + x := by
        rw [List.map_map]
        refine List.map_congr_left fun d _ => by simp [ren]
      simp only [this]
      exact npAssign_renum e a idx _
    · rfl

/-- The relation of contents of a vector that is not a function of the scalar space. -/
theorem vrel {r : Ref} (h : r.isNode = false) {v v' : Vec} : VRel C ρ κ r v v' ↔ v' = ren (ρ.perm (r.kind κ)) v := by
  simp [VRel, h]

theorem vrel_zero (r : Ref) : VRel C ρ κ r 0 0 := by
  unfold VRel
  split
  · intros; rfl
  · rfl

namespace Two

theorem zero (r : Ref) : Two C ρ κ Eq (Dxss.setVec r 0) (Dxss.setVec r 0) := .setVec (vrel_zero r)

theorem copyBlock {dst src : Ref} (hd : dst.isNode = false) (hs : src.isNode = false) (idx idx' : List ℕ) :
    Two C ρ κ Eq (Dxss.copyBlock dst idx src idx')
      (Dxss.copyBlock dst (idx.map (ρ.perm (dst.kind κ))) src (idx'.map (ρ.perm (src.kind κ)))) := by
  refine .bind (.getVec src) fun v v' hv => .bind (.getVec dst) fun a a' ha => ?_
  rw [vrel hd] at ha
  rw [vrel hs] at hv
  rw [ha, hv, map_ren]
  exact .bind (.lift (npAssign_renum _ _ _ _)) fun x x' hx => .setVec ((vrel hd).2 hx)

theorem addBlock {dst src : Ref} (hd : dst.isNode = false) (hs : src.isNode = false) (idx idx' : List ℕ) :
    Two C ρ κ Eq (Dxss.addBlock dst idx src idx')
      (Dxss.addBlock dst (idx.map (ρ.perm (dst.kind κ))) src (idx'.map (ρ.perm (src.kind κ)))) := by
  refine .bind (.getVec src) fun v v' hv => .bind (.getVec dst) fun a a' ha => ?_
  rw [vrel hd] at ha
  rw [vrel hs] at hv
  rw [ha, hv, map_ren]
  exact .bind (.lift (npAddAssign_renum _ _ _ _)) fun x x' hx => .setVec ((vrel hd).2 hx)

theorem copyTop {dst src : Ref} (hd : dst.isNode = true) (hs : src.isNode = false) {idx : List ℕ} (hl : C.fe.mP ≤ idx.length) :
    Two C ρ κ Eq (Dxss.copyTop dst src idx) (Dxss.copyTop dst src (idx.map (ρ.perm (src.kind κ)))) := by
  refine .bind (.getVec src) fun v v' hv => .setVec ?_
  rw [vrel hs] at hv
  unfold VRel
  rw [if_pos hd]
  intro s h
  subst hv
  change ren _ v ((idx.map _).getD s 0) = v (idx.getD s 0)
  rw [getD_map _ _ (h.trans_le hl) 0, ren_apply]


/-- A product with an attribute. -/
theorem matMult {A : Obj V → Option Mat} {x y : Ref} (hx : x.isNode = false) (hy : y.isNode = false) {k : Kind} (kx : x.kind κ = k)
    (ky : y.kind κ = k) (hA : ∀ o : Obj V, A (o.renum ρ) = (A o).map (·.renum (ρ.perm k)))
    (hs : ∀ (o : Obj V) (a : Mat), o.Sized C → A o = some a → Below (ρ.perm k) a.size) :
    Two C ρ κ Eq (Dxss.matMult (fun w => A w.obj) x y) (Dxss.matMult (fun w => A w.obj) x y) := by
  refine .bind (Q := fun a a' => Below (ρ.perm k) a.size ∧ a' = a.renum (ρ.perm k)) ?_ ?_
  · refine .attr _ fun w w' r => ?_
    rw [r.obj, hA]
    rcases h : A w.obj with _ | a
    · trivial
    · exact ⟨hs _ _ r.ok h, rfl⟩
  · rintro a _ ⟨ha, rfl⟩
    refine .bind (.getVec x) fun v v' hv => .setVec ?_
    rw [vrel hx, kx] at hv
    rw [vrel hy, ky, hv, mult_renum a ha]

theorem runSolver {sel : Obj V → Option Solver} {b : Ref} (hb : b.isNode = false) (kb : b.kind κ = .slab)
    (hs : ∀ o : Obj V, sel (o.renum ρ) = (sel o).map (·.renum ρ.slab)) : Two C ρ κ Eq (Dxss.runSolver sel b) (Dxss.runSolver sel b) := by
  refine .bind (.attrMap (g := fun s => s.renum ρ.slab) _ fun w w' r => by rw [r.obj, hs]) ?_
  rintro s _ rfl
  refine .bind (.getVec b) fun v v' hv => .bind (.getVec .uhPre) fun y y' hy => ?_
  rw [vrel hb, kb] at hv
  rw [vrel rfl] at hy
  subst hv hy
  have e : s.renum ρ.slab (ren (ρ.perm .slab) v) (ren (ρ.perm (Ref.kind κ .uhPre)) y) = ((s v y).1, ren ρ.slab (s v y).2) := by
    change ((s (ren ρ.slab.symm (ren ρ.slab v)) (ren ρ.slab.symm (ren ρ.slab y))).1, _) = _
    simp only [Ref.kind, Renum.perm, ren_symm]
  rw [e]
  refine .bind (.setVec ((vrel rfl).2 rfl)) fun _ _ _ => .lift ?_
  rcases (s v y).1 with _ | _ <;> rfl

section
variable (hC : C.Ok) (hρ : ρ.Fits C)

/-- Entries of the tables. -/
theorem idx {l l' : List (List ℕ)} {e : Equiv.Perm ℕ} (h : l' = l.map (List.map e)) (i : ℤ) :
    Two C ρ κ (fun a a' => a ∈ l ∧ a' = a.map e) (M.lift (pyIdx l i)) (M.lift (pyIdx l' i)) := by
  subst h; exact .lift (pyIdx_map _ i)

theorem modSized {f : Obj V → Obj V} (h1 : ∀ o, (f o).dofmaps = o.dofmaps ∨ (f o).dofmaps = some (mkDofmaps C))
    (h2 : ∀ o, (f o).slabMatNJ = o.slabMatNJ ∨ (f o).slabMatNJ = some (slabMatOf C false))
    (h3 : ∀ o, (f o).coupMat = o.coupMat ∨ (f o).coupMat = some (coupMatOf C))
    (h4 : ∀ o, (f o).bndMat = o.bndMat ∨ (f o).bndMat = some (bndMatOf C)) (o : Obj V) (h : o.Sized C) : (f o).Sized C where
  dm a ha := by
    rcases h1 o with e | e <;> rw [e] at ha
    · exact h.dm a ha
    · exact (Option.some.inj ha).symm
  slab a ha := by
    rcases h2 o with e | e <;> rw [e] at ha
    · exact h.slab a ha
    · rw [← Option.some.inj ha]; rfl
  coup a ha := by
    rcases h3 o with e | e <;> rw [e] at ha
    · exact h.coup a ha
    · rw [← Option.some.inj ha]; rfl
  bnd a ha := by
    rcases h4 o with e | e <;> rw [e] at ha
    · exact h.bnd a ha
    · rw [← Option.some.inj ha]; rfl

/-- A change that leaves the tables and these matrices alone. -/
theorem modKeep {f f' : Obj V → Obj V} (h : ∀ o : Obj V, f' (o.renum ρ) = (f o).renum ρ)
    (h1 : ∀ o, (f o).dofmaps = o.dofmaps) (h2 : ∀ o, (f o).slabMatNJ = o.slabMatNJ) (h3 : ∀ o, (f o).coupMat = o.coupMat)
    (h4 : ∀ o, (f o).bndMat = o.bndMat) : Two C ρ κ Eq (Dxss.modObj f) (Dxss.modObj f') :=
  .modObj h (modSized (fun o => .inl (h1 o)) (fun o => .inl (h2 o)) (fun o => .inl (h3 o)) fun o => .inl (h4 o))

theorem mfGather {x : Ref} (hx : x.isNode = false) (kx : x.kind κ = .full) (c : Counters) :
    Two C ρ κ Eq (Dxss.mfGather C x c) (Dxss.mfGather (C.renum ρ) x c) := by
  refine .blockLoop fun j i ell => .bind (.attrDm _) ?_
  rintro _ _ ⟨rfl, rfl⟩
  refine .bind (.idx (e := ρ.full) rfl i) ?_
  rintro a _ ⟨-, rfl⟩
  refine .bind (.attrSame (f := fun o => o.slabVecs) _ fun _ => rfl) fun _ _ _ => .bind (.idx (e := ρ.slab) rfl _) ?_
  rintro a' _ ⟨-, rfl⟩
  have := copyBlock (C := C) (ρ := ρ) (κ := κ) (dst := .vecSlab1) (src := x) rfl hx a' a
  rwa [kx] at this

theorem mfScatter {x : Ref} (hx : x.isNode = false) (kx : x.kind κ = .full) (c : Counters) :
    Two C ρ κ Eq (Dxss.mfScatter C x c) (Dxss.mfScatter (C.renum ρ) x c) := by
  refine .blockLoop fun j i ell => .bind (.attrDm _) ?_
  rintro _ _ ⟨rfl, rfl⟩
  refine .bind (.idx (e := ρ.full) rfl i) ?_
  rintro a _ ⟨-, rfl⟩
  refine .bind (.attrSame (f := fun o => o.slabVecs) _ fun _ => rfl) fun _ _ _ => .bind (.idx (e := ρ.slab) rfl _) ?_
  rintro a' _ ⟨-, rfl⟩
  have := addBlock (C := C) (ρ := ρ) (κ := κ) (dst := x) (src := .vecSlab2) hx rfl a a'
  rwa [kx] at this

theorem mfCoupGather {x : Ref} (hx : x.isNode = false) (kx : x.kind κ = .full) (c : Counters) :
    Two C ρ κ Eq (Dxss.mfCoupGather (V := V) x c) (Dxss.mfCoupGather x c) := by
  refine .forList fun j => .forList fun i => .bind (.attrDm _) ?_
  rintro _ _ ⟨rfl, rfl⟩
  refine .bind (.idx (e := ρ.full) rfl _) ?_
  rintro a _ ⟨-, rfl⟩
  refine .bind (.attrSame (f := fun o => o.coupVecs) _ fun _ => rfl) fun _ _ _ => .bind (.idx (e := ρ.coup) rfl _) ?_
  rintro a' _ ⟨-, rfl⟩
  have := copyBlock (C := C) (ρ := ρ) (κ := κ) (dst := .vecCoupling1) (src := x) rfl hx a' a
  rwa [kx] at this

theorem mfCoupScatter {x : Ref} (hx : x.isNode = false) (kx : x.kind κ = .full) (c : Counters) :
    Two C ρ κ Eq (Dxss.mfCoupScatter (V := V) x c) (Dxss.mfCoupScatter x c) := by
  refine .forList fun j => .forList fun i => .bind (.attrDm _) ?_
  rintro _ _ ⟨rfl, rfl⟩
  refine .bind (.idx (e := ρ.full) rfl _) ?_
  rintro a _ ⟨-, rfl⟩
  refine .bind (.attrSame (f := fun o => o.coupVecs) _ fun _ => rfl) fun _ _ _ => .bind (.idx (e := ρ.coup) rfl _) ?_
  rintro a' _ ⟨-, rfl⟩
  have := addBlock (C := C) (ρ := ρ) (κ := κ) (dst := x) (src := .vecCoupling2) hx rfl a a'
  rwa [kx] at this

include hρ in
theorem slabMult {x y : Ref} (hx : x.isNode = false) (hy : y.isNode = false) (kx : x.kind κ = .slab) (ky : y.kind κ = .slab) :
    Two C ρ κ Eq (Dxss.matMult (fun w => w.obj.slabMatNJ) x y) (Dxss.matMult (fun w => w.obj.slabMatNJ) x y) :=
  .matMult (A := fun o => o.slabMatNJ) hx hy kx ky (fun _ => rfl) fun o a h ha => by rw [h.slab a ha]; exact hρ.slab

include hρ in
theorem coupMult {x y : Ref} (hx : x.isNode = false) (hy : y.isNode = false) (kx : x.kind κ = .coup) (ky : y.kind κ = .coup) :
    Two C ρ κ Eq (Dxss.matMult (fun w => w.obj.coupMat) x y) (Dxss.matMult (fun w => w.obj.coupMat) x y) :=
  .matMult (A := fun o => o.coupMat) hx hy kx ky (fun _ => rfl) fun o a h ha => by rw [h.coup a ha]; exact hρ.coup

include hρ in
theorem apply {x y : Ref} (hx : x.isNode = false) (hy : y.isNode = false) (kx : x.kind κ = .full) (ky : y.kind κ = .full) :
    Two C ρ κ Eq (applySpacetimeMatrix C x y) (applySpacetimeMatrix (C.renum ρ) x y) := by
  refine .bind (.zero y) fun _ _ _ => .slabForM fun c n => ?_
  refine .bind (mfGather hx kx c) fun _ _ _ => .bind (slabMult hρ rfl rfl rfl rfl) fun _ _ _ => .bind (mfScatter hy ky c) fun _ _ _ => ?_
  exact .ite (.bind (mfCoupGather hx kx c) fun _ _ _ => .bind (coupMult hρ rfl rfl rfl rfl) fun _ _ _ => mfCoupScatter hy ky c) (.pure rfl)

theorem preGather {b d : Ref} (hb : b.isNode = false) (hd : d.isNode = false) (kb : b.kind κ = .full) (kd : d.kind κ = .slab)
    (c : Counters) : Two C ρ κ Eq (Dxss.preGather C b d c) (Dxss.preGather (C.renum ρ) b d c) := by
  refine .blockLoop fun j i ell => .bind (.attrDm _) ?_
  rintro _ _ ⟨rfl, rfl⟩
  refine .bind (.idx (e := ρ.slab) rfl _) ?_
  rintro a _ ⟨-, rfl⟩
  refine .bind (.idx (e := ρ.full) rfl _) ?_
  rintro a' _ ⟨-, rfl⟩
  have := addBlock (C := C) (ρ := ρ) (κ := κ) (dst := d) (src := b) hd hb a a'
  rwa [kb, kd] at this

theorem preWrite {x : Ref} (hx : x.isNode = false) (kx : x.kind κ = .full) (c : Counters) :
    Two C ρ κ Eq (Dxss.preWrite C x c) (Dxss.preWrite (C.renum ρ) x c) := by
  refine .blockLoop fun j i ell => .bind (.attrDm _) ?_
  rintro _ _ ⟨rfl, rfl⟩
  refine .bind (.idx (e := ρ.slab) rfl _) ?_
  rintro a _ ⟨-, rfl⟩
  refine .bind (.idx (e := ρ.full) rfl _) ?_
  rintro a' _ ⟨-, rfl⟩
  have := copyBlock (C := C) (ρ := ρ) (κ := κ) (dst := x) (src := .uhPre) hx rfl a' a
  rwa [kx] at this

theorem preSolve {b : Ref} (hb : b.isNode = false) (kb : b.kind κ = .slab) (n : ℕ) :
    Two C ρ κ Eq (Dxss.preSolve (V := V) b n) (Dxss.preSolve b n) :=
  .ite (.runSolver hb kb fun _ => rfl) (.runSolver hb kb fun _ => rfl)

include hρ in
theorem preCarry : Two C ρ κ Eq (Dxss.preCarry C) (Dxss.preCarry (C.renum ρ)) := by
  refine .bind (.attrDm _) ?_
  rintro _ _ ⟨rfl, rfl⟩
  refine .bind (.attrSame (f := fun o => o.bndVecs) _ fun _ => rfl) fun _ _ _ => .bind (.zero _) fun _ _ _ =>
    .bind (.idx (e := ρ.slab) rfl _) ?_
  rintro a _ ⟨-, rfl⟩
  refine .bind (addBlock (dst := .bndIn) (src := .uhPre) rfl rfl _ a) fun _ _ _ => .bind (.idx (e := ρ.slab) rfl _) ?_
  rintro a _ ⟨-, rfl⟩
  refine .bind (addBlock (dst := .bndIn) (src := .uhPre) rfl rfl _ a) fun _ _ _ => .bind (.matMult (A := fun o => o.bndMat) rfl rfl
    (k := .bnd) rfl rfl (fun _ => rfl) fun o a h ha => by rw [h.bnd a ha]; exact hρ.bnd) fun _ _ _ => .bind (.zero _) fun _ _ _ =>
    .bind (.idx (e := ρ.slab) rfl _) ?_
  rintro a _ ⟨-, rfl⟩
  refine .bind (addBlock (dst := .bRhsPre) (src := .bndOut) rfl rfl a _) fun _ _ _ => .bind (.idx (e := ρ.slab) rfl _) ?_
  rintro a _ ⟨-, rfl⟩
  exact addBlock (dst := .bRhsPre) (src := .bndOut) rfl rfl a _

include hρ in
theorem preImproved {b x : Ref} (hb : b.isNode = false) (hx : x.isNode = false) (kb : b.kind κ = .full) (kx : x.kind κ = .full) :
    Two C ρ κ Eq (preTimeMarchingImproved C b x) (preTimeMarchingImproved (C.renum ρ) b x) := by
  have h : Two C ρ κ Eq (Dxss.slabForM C.D.q C.D.qstar C.D.N (preBody C b x))
      (Dxss.slabForM C.D.q C.D.qstar C.D.N (preBody (C.renum ρ) b x)) := .slabForM fun c n =>
    .bind (preGather hb rfl kb rfl c) fun _ _ _ => .bind (preSolve rfl rfl n) fun _ _ _ => .bind (preCarry hρ) fun _ _ _ =>
      preWrite hx kx c
  unfold preTimeMarchingImproved
  change Two C ρ κ Eq _ (do
    if C.D.jumpsFw then M.raise .valueError
    let _ ← M.attr (fun w => w.obj.bRhsPre)
    Dxss.setVec .bRhsPre 0
    Dxss.slabForM C.D.q C.D.qstar C.D.N (preBody (C.renum ρ) b x))
  have k : Two C ρ κ Eq (do
      let _ ← M.attr (fun w => w.obj.bRhsPre)
      Dxss.setVec .bRhsPre 0
      Dxss.slabForM C.D.q C.D.qstar C.D.N (preBody C b x)) (do
      let _ ← M.attr (fun w => w.obj.bRhsPre)
      Dxss.setVec .bRhsPre 0
      Dxss.slabForM C.D.q C.D.qstar C.D.N (preBody (C.renum ρ) b x)) :=
    .bind (.attrSame (f := fun o => o.bRhsPre) _ fun _ => rfl) fun _ _ _ => .bind (.zero _) fun _ _ _ => h
  split
  · exact .bind (Q := Eq) (.raise _) fun _ _ _ => k
  · exact k

theorem nodeFun_congr {fe : FE V} {v v' : Vec} (h : ∀ s < fe.mP, v' s = v s) : nodeFun fe v' = nodeFun fe v := by
  unfold nodeFun
  exact sum_congr rfl fun s hs => by rw [h s (mem_range.1 hs)]

theorem len_full (hC : C.Ok) {a : List ℕ} {j : Fin 4} (hj : j = 0 ∨ j = 1) (h : a ∈ (mkDofmaps C).full j) : C.fe.mP ≤ a.length := by
  simp only [mkDofmaps] at h
  rw [buildDofmapsFull_eq, List.mem_map] at h
  obtain ⟨i, hi, rfl⟩ := h
  rw [hC.full.len j i]
  · rcases hj with rfl | rfl <;> exact le_rfl
  · rw [hC.fullN]
    rcases hj with rfl | rfl <;> simpa [fullSizes, Disc.timeOrder, Nat.mul_comm] using List.mem_range.1 hi

theorem len_pre (hC : C.Ok) {a : List ℕ} {j : Fin 4} (hj : j = 0 ∨ j = 1) (h : a ∈ (mkDofmaps C).pre j) : C.fe.mP ≤ a.length := by
  simp only [mkDofmaps] at h
  rw [List.mem_map] at h
  obtain ⟨i, hi, rfl⟩ := h
  rw [hC.slab.len j i]
  · rcases hj with rfl | rfl <;> exact le_rfl
  · rw [hC.slabN]
    rcases hj with rfl | rfl <;> simpa [slabSizes, Disc.timeOrder] using List.mem_range.1 hi

include hC hρ in
theorem pre {b x : Ref} (hb : b.isNode = false) (hx : x.isNode = false) (kb : b.kind κ = .full) (kx : x.kind κ = .full) :
    Two C ρ κ Eq (preTimeMarching C b x) (preTimeMarching (C.renum ρ) b x) := by
  refine .bind (.attrDm _) fun _ _ _ => .slabForM fun c n => .bind (.getVec _) fun v v' hv => .bind (.getVec _) fun u u' hu => ?_
  have e1 : nodeFun C.fe v' = nodeFun C.fe v := nodeFun_congr (by simpa [VRel, Ref.isNode] using hv)
  have e2 : nodeFun C.fe u' = nodeFun C.fe u := nodeFun_congr (by simpa [VRel, Ref.isNode] using hu)
  refine .bind (.setVec ((vrel rfl).2 ?_)) fun _ _ _ => .bind (preGather hb rfl kb rfl c) fun _ _ _ => .bind (preSolve rfl rfl n)
    fun _ _ _ => .bind (.attrDm _) ?_
  · change assembleVec C.S C.D.ind C.fe (C.slab.renum ρ.slab) (C.D.preLoad C.S n (nodeFun C.fe v') (nodeFun C.fe u')) = _
    rw [e1, e2, assembleVec_renum _ _ hC.slab hρ.slab]
    rfl
  · rintro _ _ ⟨rfl, rfl⟩
    refine .bind (.idx (e := ρ.slab) rfl _) ?_
    rintro a _ ⟨ha, rfl⟩
    refine .bind (copyTop (src := .uhPre) rfl rfl (len_pre hC (.inl rfl) ha)) fun _ _ _ => .bind (.idx (e := ρ.slab) rfl _) ?_
    rintro a _ ⟨ha, rfl⟩
    exact .bind (copyTop (src := .uhPre) rfl rfl (len_pre hC (.inr rfl) ha)) fun _ _ _ => preWrite hx kx c

/-! ### Set-up -/

include hC hρ in
theorem setupRhs : Two C ρ κ Eq (Dxss.setupRhs C) (Dxss.setupRhs (C.renum ρ)) := by
  refine .bind (.attrDm _) fun _ _ _ => .bind (.attrSame (f := fun o => o.u10) _ fun _ => rfl) fun u u' e =>
    .bind (.attrSame (f := fun o => o.u20) _ fun _ => rfl) fun v v' e' => .bind .ext fun _ _ _ => ?_
  subst e e'
  refine .bind (.modKeep (fun _ => rfl) (fun _ => rfl) (fun _ => rfl) (fun _ => rfl) fun _ => rfl) fun _ _ _ =>
    .bind (.setVec ((vrel rfl).2 ?_)) fun _ _ _ => .modKeep (fun _ => rfl) (fun _ => rfl) (fun _ => rfl) (fun _ => rfl) fun _ => rfl
  exact assembleVec_renum _ _ hC.full hρ.full _

theorem stMatOf_renum (hC : C.Ok) (hρ : ρ.Fits C) (p : Bool) : stMatOf (C.renum ρ) p = (stMatOf C p).renum ρ.full :=
  assemble_renum _ _ hC.full hρ.full _
theorem slabMatOf_renum (hC : C.Ok) (hρ : ρ.Fits C) (p : Bool) : slabMatOf (C.renum ρ) p = (slabMatOf C p).renum ρ.slab :=
  assemble_renum _ _ hC.slab hρ.slab _
theorem coupMatOf_renum (hC : C.Ok) (hρ : ρ.Fits C) : coupMatOf (C.renum ρ) = (coupMatOf C).renum ρ.coup :=
  assemble_renum _ _ hC.coup hρ.coup _
theorem bndMatOf_renum (hC : C.Ok) (hρ : ρ.Fits C) : bndMatOf (C.renum ρ) = (bndMatOf C).renum ρ.bnd :=
  assemble_renum _ _ hC.bnd hρ.bnd _

include hC hρ in
theorem setupMatrix (p : Bool) : Two C ρ κ (fun a a' => a' = (a.1.renum ρ.full, a.2)) (setupSpacetimeMatrix C p)
    (setupSpacetimeMatrix (C.renum ρ) p) :=
  .bind (.attrDm _) fun _ _ _ => .bind .ext fun _ _ _ => .pure (by rw [stMatOf_renum hC hρ]; rfl)

include hC hρ in
theorem setupCoupling : Two C ρ κ Eq (Dxss.setupCoupling C) (Dxss.setupCoupling (C.renum ρ)) := by
  refine .bind (.attrDm _) fun _ _ _ => .bind .ext fun _ _ _ => .bind (.modObj (fun o => ?_)
    (modSized (fun _ => .inl rfl) (fun _ => .inl rfl) (fun _ => .inr rfl) fun _ => .inl rfl)) fun _ _ _ => .bind .ext fun _ _ _ =>
    .bind (.modKeep (fun _ => rfl) (fun _ => rfl) (fun _ => rfl) (fun _ => rfl) fun _ => rfl) fun _ _ _ =>
    .bind (.zero _) fun _ _ _ => .zero _
  rw [coupMatOf_renum hC hρ]; rfl

include hC hρ in
theorem setupScaledMass : Two C ρ κ Eq (Dxss.setupScaledMass C) (Dxss.setupScaledMass (C.renum ρ)) := by
  refine .bind (.attrDm _) fun _ _ _ => .bind .ext fun _ _ _ => .bind (.modObj (fun o => ?_)
    (modSized (fun _ => .inl rfl) (fun _ => .inl rfl) (fun _ => .inl rfl) fun _ => .inr rfl)) fun _ _ _ => .bind .ext fun _ _ _ =>
    .bind (.modKeep (fun _ => rfl) (fun _ => rfl) (fun _ => rfl) (fun _ => rfl) fun _ => rfl) fun _ _ _ =>
    .bind (.zero _) fun _ _ _ => .zero _
  rw [bndMatOf_renum hC hρ]; rfl

include hC hρ in
theorem setupSlab (j : Bool) : Two C ρ κ Eq (setupSlabMatrix C j) (setupSlabMatrix (C.renum ρ) j) := by
  have keep : ∀ {f f' : Obj V → Obj V}, (∀ o : Obj V, f' (o.renum ρ) = (f o).renum ρ) → (∀ o, (f o).dofmaps = o.dofmaps) →
      (∀ o, (f o).slabMatNJ = o.slabMatNJ) → (∀ o, (f o).coupMat = o.coupMat) → (∀ o, (f o).bndMat = o.bndMat) →
      Two C ρ κ Eq (Dxss.modObj f) (Dxss.modObj f') := fun h h1 h2 h3 h4 => modKeep h h1 h2 h3 h4
  refine .bind (.attrDm _) fun _ _ _ => .bind .ext fun _ _ _ => ?_
  rw [slabMatOf_renum hC hρ, slabMatOf_renum hC hρ]
  refine .ite ?_ ?_
  · refine .bind (keep (fun _ => rfl) (fun _ => rfl) (fun _ => rfl) (fun _ => rfl) fun _ => rfl) fun _ _ _ =>
      .bind (keep (fun _ => rfl) (fun _ => rfl) (fun _ => rfl) (fun _ => rfl) fun _ => rfl) fun _ _ _ => ?_
    exact .ite (.bind (keep (fun _ => rfl) (fun _ => rfl) (fun _ => rfl) (fun _ => rfl) fun _ => rfl) fun _ _ _ =>
      keep (fun _ => rfl) (fun _ => rfl) (fun _ => rfl) (fun _ => rfl) fun _ => rfl) (.pure rfl)
  · refine .bind (keep (fun _ => rfl) (fun _ => rfl) (fun _ => rfl) (fun _ => rfl) fun _ => rfl) fun _ _ _ =>
      .bind (.modObj (fun _ => rfl) (modSized (fun _ => .inl rfl) (fun _ => .inr rfl) (fun _ => .inl rfl) fun _ => .inl rfl))
      fun _ _ _ => .bind .ext fun _ _ _ => .bind (keep (fun _ => rfl) (fun _ => rfl) (fun _ => rfl) (fun _ => rfl) fun _ => rfl)
      fun _ _ _ => .bind (.zero _) fun _ _ _ => .bind (.zero _) fun _ _ _ => ?_
    exact .ite (.bind (keep (fun _ => rfl) (fun _ => rfl) (fun _ => rfl) (fun _ => rfl) fun _ => rfl) fun _ _ _ =>
      keep (fun _ => rfl) (fun _ => rfl) (fun _ => rfl) (fun _ => rfl) fun _ => rfl) (.pure rfl)

/-- A step that is done only if an attribute is missing. -/
theorem guarded {c : Obj V → Bool} (hc : ∀ o : Obj V, c (o.renum ρ) = c o) {x x' : WM V Unit} {y : WM V α} {y' : WM V α'}
    (hx : Two C ρ κ Eq x x') (hy : Two C ρ κ Q y y') : Two C ρ κ Q (do
      let w ← M.get
      if c w.obj then x
      y) (do
      let w ← M.get
      if c w.obj then x'
      y') := by
  refine fun w w' r => ?_
  have e : Two C ρ κ Q (if c w.obj then x >>= fun _ => y else y) (if c w'.obj then x' >>= fun _ => y' else y') := by
    rw [r.obj, hc]
    exact .ite (.bind hx fun _ _ _ => hy) hy
  exact e w w' r

include hC hρ in
theorem prepare : Two C ρ κ Eq (prepareGmres C) (prepareGmres (C.renum ρ)) := by
  have k4 : Two C ρ κ Eq (do
      let w ← M.get
      if w.obj.bndMat.isNone then Dxss.setupScaledMass C : WM V Unit) (do
      let w ← M.get
      if w.obj.bndMat.isNone then Dxss.setupScaledMass (C.renum ρ)) :=
    .bindGet fun w w' r => by
      have : w'.obj.bndMat.isNone = w.obj.bndMat.isNone := by rw [r.obj]; exact Option.isNone_map
      rw [this]
      exact .ite (setupScaledMass hC hρ) (.pure rfl)
  have k2 := guarded (C := C) (ρ := ρ) (κ := κ) (c := fun o => o.firstMat.isNone && !C.D.wellPosed)
    (fun o => by
      change ((o.firstMat.map _).isNone && _) = _
      rw [Option.isNone_map]) (setupSlab hC hρ false)
    (guarded (c := fun o => o.coupMat.isNone) (fun o => Option.isNone_map) (setupCoupling hC hρ)
      (guarded (c := fun o => o.rhs.isNone) (fun o => rfl) (setupRhs hC hρ) k4))
  refine .bindGet fun w w' r => ?_
  have : w'.obj.slabMat.isNone = w.obj.slabMat.isNone := by rw [r.obj]; exact Option.isNone_map
  rw [this]
  split
  · exact .bind (setupSlab hC hρ true) fun _ _ _ => .bind .ext fun _ _ _ =>
      .bind (.modKeep (fun _ => rfl) (fun _ => rfl) (fun _ => rfl) (fun _ => rfl) fun _ => rfl) fun _ _ _ => .bind (.zero _) fun _ _ _ => k2
  · exact k2

include hC hρ in
theorem getMatrix (p : Bool) : Two C ρ κ (fun a a' => a' = a.renum ρ.full) (getSpacetimeMatrix C p) (getSpacetimeMatrix (C.renum ρ) p) := by
  refine fun w w' r => ?_
  have e : w'.obj.stMat = w.obj.stMat.map (·.renum ρ.full) := by rw [r.obj]; rfl
  have k : Two C ρ κ (fun a a' => a' = a.renum ρ.full) (do
      let (A, F) ← setupSpacetimeMatrix C p
      Dxss.modObj fun o => { o with stBfi := some F }
      Dxss.modObj fun o => { o with stMat := some A }
      return A) (do
      let (A, F) ← setupSpacetimeMatrix (C.renum ρ) p
      Dxss.modObj fun o => { o with stBfi := some F }
      Dxss.modObj fun o => { o with stMat := some A }
      return A) := by
    refine .bind (setupMatrix hC hρ p) ?_
    rintro a _ rfl
    exact .bind (.modKeep (fun _ => rfl) (fun _ => rfl) (fun _ => rfl) (fun _ => rfl) fun _ => rfl) fun _ _ _ =>
      .bind (.modKeep (fun _ => rfl) (fun _ => rfl) (fun _ => rfl) (fun _ => rfl) fun _ => rfl) fun _ _ _ => .pure rfl
  rcases h : w.obj.stMat with _ | A
  · have e1 : getSpacetimeMatrix C p w = (do
      let (A, F) ← setupSpacetimeMatrix C p
      Dxss.modObj fun o => { o with stBfi := some F }
      Dxss.modObj fun o => { o with stMat := some A }
      return A : WM V Mat) w := by
      change (match w.obj.stMat with | some A => _ | none => _ : WM V Mat) w = _
      rw [h]
    have e2 : getSpacetimeMatrix (C.renum ρ) p w' = (do
      let (A, F) ← setupSpacetimeMatrix (C.renum ρ) p
      Dxss.modObj fun o => { o with stBfi := some F }
      Dxss.modObj fun o => { o with stMat := some A }
      return A : WM V Mat) w' := by
      change (match w'.obj.stMat with | some A => _ | none => _ : WM V Mat) w' = _
      rw [e, h]
      rfl
    rw [e1, e2]
    exact k w w' r
  · have e1 : getSpacetimeMatrix C p w = (.ok A, w) := by
      change (match w.obj.stMat with | some A => _ | none => _ : WM V Mat) w = _
      rw [h]
      rfl
    have e2 : getSpacetimeMatrix (C.renum ρ) p w' = (.ok (A.renum ρ.full), w') := by
      change (match w'.obj.stMat with | some A => _ | none => _ : WM V Mat) w' = _
      rw [e, h]
      rfl
    rw [e1, e2]
    exact ⟨rfl, r⟩

include hC hρ in
theorem getBfi (p : Bool) : Two C ρ κ Eq (getSpacetimeBfi C p) (getSpacetimeBfi (C.renum ρ) p) := by
  refine .bindGet fun w w' r => ?_
  have e : w'.obj.stBfi = w.obj.stBfi := by rw [r.obj]; rfl
  rw [e]
  split
  · exact .pure rfl
  · refine .bind (setupMatrix hC hρ p) ?_
    rintro a _ rfl
    exact .bind (.modKeep (fun _ => rfl) (fun _ => rfl) (fun _ => rfl) (fun _ => rfl) fun _ => rfl) fun _ _ _ =>
      .bind (.modKeep (fun _ => rfl) (fun _ => rfl) (fun _ => rfl) (fun _ => rfl) fun _ => rfl) fun _ _ _ => .pure rfl

include hC hρ in
theorem getRhs : Two C ρ κ Eq (getSpacetimeRhs C) (getSpacetimeRhs (C.renum ρ)) :=
  guarded (c := fun o => o.rhs.isNone) (fun _ => rfl) (setupRhs hC hρ) (.pure rfl)
include hC hρ in
theorem getLfi : Two C ρ κ Eq (getSpacetimeLfi C) (getSpacetimeLfi (C.renum ρ)) :=
  guarded (c := fun o => o.lfi.isNone) (fun _ => rfl) (setupRhs hC hρ) (.attrSame (f := fun o => o.lfi) _ fun _ => rfl)

theorem read {f : Obj V → α} {f' : Obj V → α'} (h : ∀ o : Obj V, Q (f o) (f' (o.renum ρ))) :
    Two C ρ κ Q (fun w : World V => (.ok (f w.obj), w)) (fun w : World V => (.ok (f' w.obj), w)) := fun w w' r =>
  ⟨by change Q (f w.obj) (f' w'.obj); rw [r.obj]; exact h _, r⟩

include hC hρ in
theorem getSlabBfi : Two C ρ κ Eq (Dxss.getSlabBfi C) (Dxss.getSlabBfi (C.renum ρ)) := by
  have h : Two C ρ κ Eq (do let w ← M.get; return w.obj.slabBfi : WM V (Option (List Term))) (do let w ← M.get; return w.obj.slabBfi) :=
    read fun _ => rfl
  refine .bindGet fun w w' r => ?_
  have : w'.obj.slabBfi.isNone = w.obj.slabBfi.isNone := by rw [r.obj]; rfl
  rw [this]
  split
  · exact .bind (setupSlab hC hρ true) fun _ _ _ => .bind (setupSlab hC hρ false) fun _ _ _ => h
  · exact h

include hC hρ in
theorem getSlabMatrix : Two C ρ κ (fun a a' => a' = a.map (·.renum ρ.slab)) (Dxss.getSlabMatrix C) (Dxss.getSlabMatrix (C.renum ρ)) := by
  have h : Two C ρ κ (fun a a' => a' = a.map (·.renum ρ.slab)) (do let w ← M.get; return w.obj.slabMat : WM V (Option Mat))
    (do let w ← M.get; return w.obj.slabMat) := read fun _ => rfl
  refine fun w w' r => ?_
  have e : Two C ρ κ (fun a a' => a' = a.map (·.renum ρ.slab)) (if w.obj.slabMat.isNone then (do
        setupSlabMatrix C true
        setupSlabMatrix C false
        let w ← M.get
        return w.obj.slabMat) else (do let w ← M.get; return w.obj.slabMat)) (if w'.obj.slabMat.isNone then (do
        setupSlabMatrix (C.renum ρ) true
        setupSlabMatrix (C.renum ρ) false
        let w ← M.get
        return w.obj.slabMat) else (do let w ← M.get; return w.obj.slabMat)) := by
    have : w'.obj.slabMat.isNone = w.obj.slabMat.isNone := by rw [r.obj]; exact Option.isNone_map
    rw [this]
    exact .ite (.bind (setupSlab hC hρ true) fun _ _ _ => .bind (setupSlab hC hρ false) fun _ _ _ => h) h
  exact e w w' r

/-! ### Error measurement, plots, coarse grid -/

theorem nodeAt_renum {e : Equiv.Perm ℕ} {a : List ℕ} {fe : FE V} (h : fe.mP ≤ a.length) (v : Vec) :
    nodeAt fe (ren e v) (a.map e) = nodeAt fe v a := by
  unfold nodeAt
  refine nodeFun_congr fun s hs => ?_
  rw [getD_map _ _ (hs.trans_le h) 0, ren_apply]

include hC in
theorem loadFinal {u : Ref} (hu : u.isNode = false) (ku : u.kind κ = .full) :
    Two C ρ κ Eq (Dxss.loadFinal C u) (Dxss.loadFinal (C.renum ρ) u) := by
  refine .bind (.attrDm _) ?_
  rintro _ _ ⟨rfl, rfl⟩
  refine .bind (.getVec u) fun v v' hv => ?_
  rw [vrel hu, ku] at hv
  refine .bind (.setVec ((vrel rfl).2 hv)) fun _ _ _ => .bind (.getVec .uh) fun h h' hh => .bind (.idx (e := ρ.full) rfl _) ?_
  rw [vrel rfl] at hh
  subst hh
  rintro a _ ⟨ha, rfl⟩
  have e : nodeAt (C.renum ρ).fe (ren (ρ.perm (Ref.kind κ .uh)) h) (a.map ρ.full) = nodeAt C.fe h a := nodeAt_renum (len_full hC (.inl rfl) ha) h
  rw [e]
  refine .bind (.modKeep (fun _ => rfl) (fun _ => rfl) (fun _ => rfl) (fun _ => rfl) fun _ => rfl) fun _ _ _ =>
    .bind (.idx (e := ρ.full) rfl _) ?_
  rintro a _ ⟨ha, rfl⟩
  have e : nodeAt (C.renum ρ).fe (ren (ρ.perm (Ref.kind κ .uh)) h) (a.map ρ.full) = nodeAt C.fe h a := nodeAt_renum (len_full hC (.inr rfl) ha) h
  rw [e]
  exact .modKeep (fun _ => rfl) (fun _ => rfl) (fun _ => rfl) (fun _ => rfl) fun _ => rfl

include hC in
theorem errLoad (n : ℕ) (i : ℤ) : Two C ρ κ Eq (Dxss.errLoad C n i) (Dxss.errLoad (C.renum ρ) n i) := by
  refine .bind (.attrDm _) ?_
  rintro _ _ ⟨rfl, rfl⟩
  have k : Two C ρ κ Eq (M.forList (List.range (C.D.q + 1)) fun (ell : ℕ) => do
        let i ← M.lift (pyIdx ((mkDofmaps C).full 0) (i + ell))
        Dxss.copyTop (.u1Slab ell) .uh i : WM V Unit) (M.forList (List.range (C.D.q + 1)) fun (ell : ℕ) => do
        let i ← M.lift (pyIdx (((mkDofmaps C).renum ρ).full 0) (i + ell))
        Dxss.copyTop (.u1Slab ell) .uh i) := by
    refine .forList fun ell => .bind (.idx (e := ρ.full) rfl _) ?_
    rintro a _ ⟨ha, rfl⟩
    exact copyTop (src := .uh) rfl rfl (len_full hC (.inl rfl) ha)
  split
  · refine .bind (.idx (e := ρ.full) rfl _) ?_
    rintro a _ ⟨ha, rfl⟩
    exact .bind (copyTop (src := .uh) rfl rfl (len_full hC (.inl rfl) ha)) fun _ _ _ => k
  · exact k

include hC in
theorem errors {u : Ref} (hu : u.isNode = false) (ku : u.kind κ = .full) :
    Two C ρ κ Eq (measuredErrors C u) (measuredErrors (C.renum ρ) u) := by
  refine .bind (loadFinal hC hu ku) fun _ _ _ => .bind .ext fun _ _ _ => .bind (.attrSame (f := fun o => o.u10) _ fun _ => rfl) ?_
  rintro u10 _ rfl
  refine .bind (Q := Eq) (.forAcc (Q' := Eq) ?_ rfl) ?_
  · rintro a _ n rfl
    refine .bind (errLoad hC n _) fun _ _ _ => .bind (.getVec .u1Minus) fun m m' hm => .bindGet fun w w' r => ?_
    have e1 : nodeFun C.fe m' = nodeFun C.fe m := nodeFun_congr (by simpa [VRel, Ref.isNode] using hm)
    have e2 : ∀ j, nodeFun C.fe (w'.heap (.u1Slab j)) = nodeFun C.fe (w.heap (.u1Slab j)) := fun j =>
      nodeFun_congr (by simpa [VRel, Ref.isNode] using r.heap (.u1Slab j))
    change Two C ρ κ Eq _ (do
      let total ← errQuad (C.renum ρ) n (fun j => nodeFun C.fe (w'.heap (.u1Slab j))) (nodeFun C.fe m') a.total
      let s ← errSamples (C.renum ρ) n (fun j => nodeFun C.fe (w'.heap (.u1Slab j))) (nodeFun C.fe m') (a.su, a.sut)
      return (⟨a.intIdx + (C.D.q + 1), s.1, s.2, total⟩ : ErrAcc))
    rw [e1]
    simp only [e2]
    refine .bind (Q := Eq) ?_ ?_
    · exact .forAcc (Q' := Eq) (fun t t' p e => .bind .ext fun _ _ _ => .pure (by subst e; rfl)) rfl
    · rintro t _ rfl
      refine .bind (Q := Eq) ?_ ?_
      · refine .forAcc (Q' := Eq) (fun t t' p e => ?_) rfl
        subst e
        exact .ite (.bind .ext fun _ _ _ => .pure rfl) (.pure rfl)
      · rintro t _ rfl
        exact .pure rfl
  · rintro a _ rfl
    have lift' : ∀ {α : Type} (x : Py α), Two C ρ κ Eq (M.lift x) (M.lift x) := fun x => .lift (by rcases x with _ | _ <;> rfl)
    refine .bind (lift' _) ?_
    rintro t _ rfl
    refine .bind (lift' _) ?_
    rintro t' _ rfl
    refine .bind (lift' _) ?_
    rintro t'' _ rfl
    exact .pure rfl

theorem liftSame (x : Py α) : Two C ρ κ Eq (M.lift x) (M.lift x) := .lift (by rcases x with _ | _ <;> rfl)

theorem setSame {r : Ref} (h : r.isNode = false) (k : r.kind κ = .other) (v : Vec) : Two C ρ κ Eq (Dxss.setVec r v) (Dxss.setVec r v) :=
  .setVec ((vrel h).2 (by rw [k]; rfl))

theorem getSame {r : Ref} (h : r.isNode = false) (k : r.kind κ = .other) : Two C ρ κ Eq (Dxss.getVec r) (Dxss.getVec (V := V) r) :=
  (Two.getVec r).mono fun a a' e => by rw [vrel h, k] at e; exact e.symm

theorem prolongation {x y : Ref} (hx : x.isNode = false) (hy : y.isNode = false) (kx : x.kind κ = .other) (ky : y.kind κ = .full) :
    Two C ρ κ Eq (Dxss.prolongation C x y) (Dxss.prolongation (C.renum ρ) x y) := by
  refine .slabForM fun c n => .blockLoop fun j i _ => .bind (.attrSame (f := fun o => o.coarseMaps) _ fun _ => rfl) ?_
  rintro cm _ rfl
  refine .bind (.liftSame _) ?_
  rintro a _ rfl
  refine .bind (getSame hx kx) ?_
  rintro v _ rfl
  refine .bind (.attrSame (f := fun o => o.coarseNode) _ fun _ => rfl) ?_
  rintro K _ rfl
  refine .bind (.liftSame _) ?_
  rintro b _ rfl
  refine .bind (setSame rfl rfl _) fun _ _ _ => .bind (setSame rfl rfl _) fun _ _ _ => .bind (getSame rfl rfl) ?_
  rintro f _ rfl
  refine .bind (.attrDm _) ?_
  rintro _ _ ⟨rfl, rfl⟩
  refine .bind (.idx (e := ρ.full) rfl _) ?_
  rintro d _ ⟨-, rfl⟩
  refine .bind (.getVec y) fun z z' hz => ?_
  rw [vrel hy, ky] at hz
  subst hz
  exact .bind (.lift (npAssign_renum ρ.full _ _ _)) fun v v' hv => .setVec ((vrel hy).2 (by rw [ky]; exact hv))

theorem restriction {x y : Ref} (hx : x.isNode = false) (hy : y.isNode = false) (kx : x.kind κ = .other) (ky : y.kind κ = .full) :
    Two C ρ κ Eq (Dxss.restriction C x y) (Dxss.restriction (C.renum ρ) x y) := by
  refine .slabForM fun c n => .blockLoop fun j i _ => .bind (.attrDm _) ?_
  rintro _ _ ⟨rfl, rfl⟩
  refine .bind (.idx (e := ρ.full) rfl _) ?_
  rintro d _ ⟨-, rfl⟩
  refine .bind (.getVec y) fun z z' hz => ?_
  rw [vrel hy, ky] at hz
  subst hz
  refine .bind (.attrSame (f := fun o => o.coarseNode) _ fun _ => rfl) ?_
  rintro K _ rfl
  rw [show (d.map ρ.full).map (ren (ρ.perm .full) z) = d.map z from map_ren _ _ _]
  refine .bind (.liftSame _) ?_
  rintro b _ rfl
  refine .bind (setSame rfl rfl _) fun _ _ _ => .bind (setSame rfl rfl _) fun _ _ _ => .bind (getSame rfl rfl) ?_
  rintro f _ rfl
  refine .bind (.attrSame (f := fun o => o.coarseMaps) _ fun _ => rfl) ?_
  rintro cm _ rfl
  refine .bind (.liftSame _) ?_
  rintro a _ rfl
  refine .bind (getSame hx kx) ?_
  rintro v _ rfl
  refine .bind (.liftSame _) ?_
  rintro v' _ rfl
  exact setSame hx kx _

theorem qOp {b x : Ref} (hb : b.isNode = false) (hx : x.isNode = false) (kb : b.kind κ = .full) (kx : x.kind κ = .full) :
    Two C ρ κ Eq (Dxss.qOp C b x) (Dxss.qOp (C.renum ρ) b x) := by
  refine .bind (.attrSame (f := fun o => o.coarseTmps) _ fun _ => rfl) fun _ _ _ => .bind (restriction rfl hb rfl kb) fun _ _ _ =>
    .bind (.attrSame (f := fun o => o.solverCoarse) _ fun _ => rfl) ?_
  rintro s _ rfl
  refine .bind (getSame rfl rfl) ?_
  rintro u _ rfl
  refine .bind (getSame rfl rfl) ?_
  rintro v _ rfl
  exact .bind (setSame rfl rfl _) fun _ _ _ => .bind (.liftSame _) fun _ _ _ => prolongation rfl hx rfl kx

theorem prepareCoarse (K : CoarseMesh V) : Two C ρ κ Eq (Dxss.prepareCoarse C K) (Dxss.prepareCoarse (C.renum ρ) K) := by
  have keep : ∀ {f f' : Obj V → Obj V}, (∀ o : Obj V, f' (o.renum ρ) = (f o).renum ρ) → (∀ o, (f o).dofmaps = o.dofmaps) →
      (∀ o, (f o).slabMatNJ = o.slabMatNJ) → (∀ o, (f o).coupMat = o.coupMat) → (∀ o, (f o).bndMat = o.bndMat) →
      Two C ρ κ Eq (Dxss.modObj f) (Dxss.modObj f') := fun h h1 h2 h3 h4 => modKeep h h1 h2 h3 h4
  exact .bind .ext fun _ _ _ => .bind (keep (fun _ => rfl) (fun _ => rfl) (fun _ => rfl) (fun _ => rfl) fun _ => rfl) fun _ _ _ =>
    .bind (.attrDm _) fun _ _ _ => .bind (keep (fun _ => rfl) (fun _ => rfl) (fun _ => rfl) (fun _ => rfl) fun _ => rfl) fun _ _ _ =>
    .bind (.zero _) fun _ _ _ => .bind (.zero _) fun _ _ _ => .bind .ext fun _ _ _ =>
    .bind (keep (fun _ => rfl) (fun _ => rfl) (fun _ => rfl) (fun _ => rfl) fun _ => rfl) fun _ _ _ =>
    .bind (.attrSame (f := fun o => o.lfi) _ fun _ => rfl) fun _ _ _ => .bind .ext fun _ _ _ =>
    .bind (keep (fun _ => rfl) (fun _ => rfl) (fun _ => rfl) (fun _ => rfl) fun _ => rfl) fun _ _ _ =>
    .bind (.forList fun _ => .zero _) fun _ _ _ => .bind .ext fun _ _ _ =>
    .bind (keep (fun _ => rfl) (fun _ => rfl) (fun _ => rfl) (fun _ => rfl) fun _ => rfl) fun _ _ _ => .bind (.zero _) fun _ _ _ => .zero _

end

end Two

end two

/-! ### Calls -/

/-- The same call in the new numbering: the caller writes renumbered vectors and passes solvers for the renumbered systems. -/
def Op.renum (ρ : Renum) (κ : ℕ → Kind) : Op V → Op V
  | .write k v => .write k (ren (ρ.perm (κ k)) v)
  | .setSolverFirst s => .setSolverFirst (s.renum ρ.slab)
  | .setSolverSlab s => .setSolverSlab (s.renum ρ.slab)
  | op => op

/-- The caller's vectors are of the space the call asks for. -/
def Op.WellTyped (κ : ℕ → Kind) : Op V → Prop
  | .apply x y | .pre x y | .preImproved x y | .qOp x y | .preTwolvl x y => x.ref.kind κ = .full ∧ κ y = .full
  | .errors x | .paraView x | .plot x => x.ref.kind κ = .full
  | .slabMult x y => x.ref.kind κ = .slab ∧ κ y = .slab
  | .coupMult x y => x.ref.kind κ = .coup ∧ κ y = .coup
  | .prolongation x y => x.ref.kind κ = .other ∧ κ y = .full
  | .restriction y x => x.ref.kind κ = .full ∧ κ y = .other
  | _ => True

theorem InVec.kindNode (x : InVec) : x.ref.isNode = false := by cases x <;> rfl

theorem two_op {C : Cfg V} (hC : C.Ok) {ρ : Renum} (hρ : ρ.Fits C) {κ : ℕ → Kind} (op : Op V) (h : op.WellTyped κ) :
    Two C ρ κ Eq (runOp C op) (runOp (C.renum ρ) (op.renum ρ κ)) := by
  cases op with
  | setupFE =>
    refine .bind .ext fun _ _ _ => .bind (.modObj (fun o => ?_)
      (Two.modSized (fun _ => .inr rfl) (fun _ => .inl rfl) (fun _ => .inl rfl) fun _ => .inl rfl)) fun _ _ _ =>
      .bind (.zero _) fun _ _ _ => .bind (.zero _) fun _ _ _ => .zero _
    rw [mkDofmaps_renum]; rfl
  | getMatrix p => exact .void (.getMatrix hC hρ p)
  | getBfi p => exact .void (.getBfi hC hρ p)
  | getRhs => exact .void (.getRhs hC hρ)
  | getLfi => exact .void (.getLfi hC hρ)
  | getSlabBfi => exact .void (.getSlabBfi hC hρ)
  | getSlabMatrix => exact .void (.getSlabMatrix hC hρ)
  | getFirstBfi => exact .void (Two.read (Q := Eq) (f := fun o => o.firstBfi) fun _ => rfl)
  | getFirstMatrix => exact .void (Two.read (Q := fun a a' => a' = a.map (·.renum ρ.slab)) (f := fun o => o.firstMat) fun _ => rfl)
  | setSolverFirst s => exact Two.modKeep (fun _ => rfl) (fun _ => rfl) (fun _ => rfl) (fun _ => rfl) fun _ => rfl
  | setSolverSlab s => exact Two.modKeep (fun _ => rfl) (fun _ => rfl) (fun _ => rfl) (fun _ => rfl) fun _ => rfl
  | prepare => exact .prepare hC hρ
  | apply x y => exact .apply hρ x.kindNode rfl h.1 h.2
  | pre b x => exact .pre hC hρ b.kindNode rfl h.1 h.2
  | preImproved b x => exact .preImproved hρ b.kindNode rfl h.1 h.2
  | errors u => exact .void (.errors hC u.kindNode h)
  | paraView u => exact .bind (.loadFinal hC u.kindNode h) fun _ _ _ => .ext
  | prepareCoarse K => exact .prepareCoarse K
  | setSolverCoarse s => exact Two.modKeep (fun _ => rfl) (fun _ => rfl) (fun _ => rfl) (fun _ => rfl) fun _ => rfl
  | qOp b x => exact .qOp b.kindNode rfl h.1 h.2
  | preTwolvl b x => exact fun _ _ r => ⟨rfl, r⟩
  | setupSlab j => exact .setupSlab hC hρ j
  | setupCoupling => exact .setupCoupling hC hρ
  | setupScaledMass => exact .setupScaledMass hC hρ
  | setupRhs => exact .setupRhs hC hρ
  | setInitial u v =>
    exact .bind (.attrSame (f := fun o => o.u10) _ fun _ => rfl) fun _ _ _ =>
      .bind (Two.modKeep (fun _ => rfl) (fun _ => rfl) (fun _ => rfl) (fun _ => rfl) fun _ => rfl) fun _ _ _ =>
      .bind (.attrSame (f := fun o => o.u20) _ fun _ => rfl) fun _ _ _ =>
      Two.modKeep (fun _ => rfl) (fun _ => rfl) (fun _ => rfl) (fun _ => rfl) fun _ => rfl
  | setupMatrix p => exact .void (.setupMatrix hC hρ p)
  | slabMult x y => exact .slabMult hρ x.kindNode rfl h.1 h.2
  | coupMult x y => exact .coupMult hρ x.kindNode rfl h.1 h.2
  | getMatrixCoarse => exact .void (Two.read (Q := Eq) (f := fun o => o.coarseMat) fun _ => rfl)
  | prolongation x y => exact .prolongation x.kindNode rfl h.1 h.2
  | restriction y x => exact .restriction rfl x.kindNode h.2 h.1
  | plot u => exact .bind (.attrDm _) fun _ _ _ => .bind (.getVec _) fun _ _ _ => .ext
  | write k v => exact .setVec ((vrel rfl).2 rfl)

theorem RR.ops {C : Cfg V} (hC : C.Ok) {ρ : Renum} (hρ : ρ.Fits C) {κ : ℕ → Kind} {ops : List (Op V)} (h : ∀ op ∈ ops, op.WellTyped κ)
    {w w' : World V} (r : RR C ρ κ w w') : RR C ρ κ (runOps C ops w) (runOps (C.renum ρ) (ops.map (·.renum ρ κ)) w') := by
  induction ops generalizing w w' with
  | nil => exact r
  | cons op ops ih => exact ih (fun o ho => h o (by simp [ho])) (two_op hC hρ op (h op (by simp)) w w' r).2

/-! ### Two numberings of the same spaces -/

/-- The triples (component, time index, spatial dof). -/
abbrev Triple (nsub m : Fin 4 → ℕ) := {p : Fin 4 × ℕ × ℕ // p.2.1 < nsub p.1 ∧ p.2.2 < m p.1}

noncomputable def FSpace.Ok.equiv {L : FSpace} {m : Fin 4 → ℕ} (h : L.Ok m) : Triple L.nsub m ≃ Fin L.size :=
  Equiv.ofBijective (fun p => ⟨L.dof p.1.1 p.1.2.1 p.1.2.2, h.lt _ _ _ p.2.1 p.2.2⟩)
    ⟨fun p p' e => by
      obtain ⟨h1, h2, h3⟩ := h.inj _ _ _ _ _ _ p.2.1 p.2.2 p'.2.1 p'.2.2 (Fin.mk.inj_iff.1 e)
      exact Subtype.ext (Prod.ext h1 (Prod.ext h2 h3)),
     fun d => by
      obtain ⟨c, i, s, hi, hs, e⟩ := h.surj d d.2
      exact ⟨⟨(c, i, s), hi, hs⟩, Fin.ext e⟩⟩

theorem FSpace.Ok.equiv_apply {L : FSpace} {m : Fin 4 → ℕ} (h : L.Ok m) (p : Triple L.nsub m) :
    (h.equiv p).1 = L.dof p.1.1 p.1.2.1 p.1.2.2 := rfl

theorem exists_perm {L L' : FSpace} {m : Fin 4 → ℕ} (h : L.Ok m) (h' : L'.Ok m) (hn : L'.nsub = L.nsub) : L'.size = L.size ∧
    ∃ e : Equiv.Perm ℕ, Below e L.size ∧ (∀ d, L.size ≤ d → e d = d) ∧
      ∀ c i s, i < L.nsub c → s < m c → e (L.dof c i s) = L'.dof c i s := by
  rcases L' with ⟨n', N, F⟩
  obtain rfl : N = L.nsub := hn
  have hs : n' = L.size := by
    have := Fintype.card_congr (h'.equiv.symm.trans h.equiv)
    rwa [Fintype.card_fin, Fintype.card_fin] at this
  subst hs
  refine ⟨rfl, ?_⟩
  let p : Equiv.Perm (Fin L.size) := h.equiv.symm.trans h'.equiv
  let e : Equiv.Perm ℕ := p.extendDomain Fin.equivSubtype
  have e1 : ∀ d (hd : d < L.size), e d = (p ⟨d, hd⟩).1 := fun d hd => by
    have := Equiv.Perm.extendDomain_apply_subtype p Fin.equivSubtype hd
    simpa using this
  have e2 : ∀ d, L.size ≤ d → e d = d := fun d hd =>
    Equiv.Perm.extendDomain_apply_not_subtype p Fin.equivSubtype (by omega)
  refine ⟨e, fun d => ?_, e2, fun c i s hi hs => ?_⟩
  · by_cases hd : d < L.size
    · rw [e1 d hd]; exact ⟨fun _ => hd, fun _ => Fin.isLt _⟩
    · rw [e2 d (by omega)]
  · rw [e1 _ (h.lt c i s hi hs)]
    have : h.equiv ⟨(c, i, s), hi, hs⟩ = ⟨L.dof c i s, h.lt c i s hi hs⟩ := rfl
    rw [← this]
    change (h'.equiv (h.equiv.symm (h.equiv _))).1 = _
    rw [Equiv.symm_apply_apply]
    rfl

/-- The tables agree where they are used. -/
structure FSpace.Same (L L' : FSpace) : Prop where
  size : L'.size = L.size
  nsub : L'.nsub = L.nsub
  maps : ∀ c i, i < L.nsub c → L'.collapse c i = L.collapse c i

theorem FSpace.Same.of_perm {L L' : FSpace} {m : Fin 4 → ℕ} (h : L.Ok m) (h' : L'.Ok m) (hs : L'.size = L.size) (hn : L'.nsub = L.nsub)
    {e : Equiv.Perm ℕ} (he : ∀ c i s, i < L.nsub c → s < m c → e (L.dof c i s) = L'.dof c i s) : (L.renum e).Same L' where
  size := hs
  nsub := hn
  maps c i hi := by
    have hi : i < L.nsub c := hi
    change _ = (L.collapse c i).map e
    have l1 := h.len c i hi
    have l2 := h'.len c i (by rw [hn]; exact hi)
    refine List.ext_getElem (by rw [List.length_map, l1, l2]) fun s h1 h2 => ?_
    have := he c i s hi (by rw [← l2]; exact h1)
    unfold FSpace.dof at this
    rw [List.getD_eq_getElem _ _ (by rw [l1, ← l2]; exact h1), List.getD_eq_getElem _ _ h1] at this
    rw [List.getElem_map, this]

section same
variable {L L' : FSpace} (h : L.Same L') {S : Space V} {ind : V} {fe : FE V}
include h

theorem FSpace.Same.field : L'.field fe = L.field fe := by
  funext x c i
  simp only [FSpace.field, h.nsub]
  split
  · rename_i hi
    simp only [FSpace.dof, h.maps c i.toNat (by omega)]
  · rfl

theorem FSpace.Same.assemble (F : List Term) : Dxss.assemble S ind fe L' F = Dxss.assemble S ind fe L F := by
  simp only [Dxss.assemble, h.size, h.field]

theorem FSpace.Same.assembleVec (F : List (LTerm V)) : Dxss.assembleVec S ind fe L' F = Dxss.assembleVec S ind fe L F := by
  funext d
  simp only [Dxss.assembleVec, h.size, h.field]

end same

/-- Other function spaces. -/
def Cfg.spaces (C : Cfg V) (f s c b : FSpace) : Cfg V := { C with full := f, slab := s, coup := c, bnd := b }

section congr
variable {C : Cfg V} (hC : C.Ok) {f s c b : FSpace} (hf : C.full.Same f) (hs : C.slab.Same s) (hc : C.coup.Same c) (hb : C.bnd.Same b)
include hC hf hs hc hb

theorem mkDofmaps_congr : mkDofmaps (C.spaces f s c b) = mkDofmaps C := by
  simp only [mkDofmaps, Dofmaps.mk.injEq]
  refine ⟨?_, ?_, ?_, ?_⟩
  · funext j
    change buildDofmapsFull C.D f j = buildDofmapsFull C.D C.full j
    rw [buildDofmapsFull_eq, buildDofmapsFull_eq]
    refine List.map_congr_left fun i hi => hf.maps j i ?_
    rw [hC.fullN]
    have := List.mem_range.1 hi
    fin_cases j <;> simpa [fullSizes, Disc.timeOrder, Nat.mul_comm] using this
  · funext j
    split
    · rename_i hj
      refine List.map_congr_left fun i hi => hc.maps j i ?_
      rw [hC.coupN]
      have := List.mem_range.1 hi
      rcases hj with rfl | rfl <;> simpa [couplingSizes] using this
    · rfl
  · funext j
    refine List.map_congr_left fun i hi => hs.maps j i ?_
    rw [hC.slabN]
    have : i < C.D.timeOrder j + 1 := List.mem_range.1 hi
    fin_cases j <;> simpa [slabSizes, Disc.timeOrder] using this
  · funext j
    split
    · rename_i hj
      refine hb.maps j 0 ?_
      rw [hC.bndN]
      rcases hj with rfl | rfl <;> simp [bndSizes]
    · rfl

omit hC hf hs hc hb in
theorem congr_errors (u : Ref) : measuredErrors (C.spaces f s c b) u = measuredErrors C u := by
  have k1 : errLoad (C.spaces f s c b) = errLoad C := by
    funext n i
    simp only [errLoad, Cfg.spaces]
  have k2 : errQuad (C.spaces f s c b) = errQuad C := by
    funext n i m t
    simp only [errQuad, Cfg.spaces]
  have k3 : errSamples (C.spaces f s c b) = errSamples C := by
    funext n i m t
    unfold errSamples
    rfl
  have k4 : loadFinal (C.spaces f s c b) = loadFinal C := by
    funext n
    simp only [loadFinal, Cfg.spaces]
  have k10 : errBody (C.spaces f s c b) = errBody C := by
    funext x n
    unfold errBody
    rw [k1, k2, k3]
    rfl
  unfold measuredErrors
  rw [k4, k10]
  rfl

theorem congr_op (op : Op V) : runOp (C.spaces f s c b) op = runOp C op := by
  have e1 : mkDofmaps (C.spaces f s c b) = mkDofmaps C := mkDofmaps_congr hC hf hs hc hb
  have e2 : ∀ p, stMatOf (C.spaces f s c b) p = stMatOf C p := fun p => hf.assemble _
  have e3 : ∀ p, slabMatOf (C.spaces f s c b) p = slabMatOf C p := fun p => hs.assemble _
  have e4 : coupMatOf (C.spaces f s c b) = coupMatOf C := hc.assemble _
  have e5 : bndMatOf (C.spaces f s c b) = bndMatOf C := hb.assemble _
  have e6 : ∀ u v, rhsVecOf (C.spaces f s c b) u v = rhsVecOf C u v := fun u v => hf.assembleVec _
  have k1 : ∀ p, setupSpacetimeMatrix (C.spaces f s c b) p = setupSpacetimeMatrix C p := fun p => by
    unfold setupSpacetimeMatrix; rw [e2]; rfl
  have k2 : ∀ p, setupSlabMatrix (C.spaces f s c b) p = setupSlabMatrix C p := fun p => by
    unfold setupSlabMatrix; simp only [e3]; rfl
  have k3 : setupCoupling (C.spaces f s c b) = setupCoupling C := by unfold setupCoupling; rw [e4]
  have k4 : setupScaledMass (C.spaces f s c b) = setupScaledMass C := by unfold setupScaledMass; rw [e5]
  have k5 : setupRhs (C.spaces f s c b) = setupRhs C := by unfold setupRhs; simp only [e6]; rfl
  have k6 : prepareGmres (C.spaces f s c b) = prepareGmres C := by unfold prepareGmres; simp only [k2, k3, k4, k5]; rfl
  have k7 : preOldBody (C.spaces f s c b) = preOldBody C := by
    funext u v d n
    unfold preOldBody
    have : ∀ F, assembleVec C.S C.D.ind C.fe s F = assembleVec C.S C.D.ind C.fe C.slab F := fun F => hs.assembleVec F
    simp only [Cfg.spaces, this]
    rfl
  have k8 : mfBody (C.spaces f s c b) = mfBody C := by
    funext x y d n
    simp only [mfBody, mfGather, mfScatter, Cfg.spaces]
  have k9 : preBody (C.spaces f s c b) = preBody C := by
    funext x y d n
    simp only [preBody, preGather, preCarry, preWrite, Cfg.spaces]
  have k11 : ∀ (C : Cfg V) b x w, preTwolvl C b x w = (.error .attributeError, w) := fun _ _ _ _ => rfl
  cases op with
  | setupFE => simp only [runOp, setupFE, e1]
  | getMatrix p => simp only [runOp, getSpacetimeMatrix, k1]
  | getBfi p => simp only [runOp, getSpacetimeBfi, k1]
  | getRhs => simp only [runOp, getSpacetimeRhs, k5]
  | getLfi => simp only [runOp, getSpacetimeLfi, k5]
  | getSlabBfi => simp only [runOp, getSlabBfi, k2]
  | getSlabMatrix => simp only [runOp, getSlabMatrix, k2]
  | prepare => exact k6
  | pre b x => simp only [runOp, preTimeMarching, k7]; rfl
  | setupSlab j => exact k2 j
  | setupCoupling => exact k3
  | setupScaledMass => exact k4
  | setupRhs => exact k5
  | setupMatrix p => simp only [runOp, k1]
  | apply x y => simp only [runOp, applySpacetimeMatrix, k8]; rfl
  | preImproved x y => simp only [runOp, preTimeMarchingImproved, k9]; rfl
  | errors u => simp only [runOp, congr_errors]
  | paraView u => simp only [runOp, plotParaView, loadFinal, Cfg.spaces]
  | prepareCoarse K => simp only [runOp, prepareCoarse, coarseMatOf, Cfg.spaces]
  | qOp x y => simp only [runOp, qOp, restriction, prolongation, Cfg.spaces]
  | prolongation x y => simp only [runOp, prolongation, Cfg.spaces]
  | restriction x y => simp only [runOp, restriction, Cfg.spaces]
  | preTwolvl x y => funext w; simp only [runOp, k11]
  | getFirstBfi => rfl
  | getFirstMatrix => rfl
  | setSolverFirst s => rfl
  | setSolverSlab s => rfl
  | setSolverCoarse s => rfl
  | setInitial u v => rfl
  | slabMult x y => rfl
  | coupMult x y => rfl
  | getMatrixCoarse => rfl
  | plot u => rfl
  | write k v => rfl

theorem congr_getMatrix (p : Bool) : getSpacetimeMatrix (C.spaces f s c b) p = getSpacetimeMatrix C p := by
  have e2 : ∀ p, stMatOf (C.spaces f s c b) p = stMatOf C p := fun p => hf.assemble _
  have k1 : ∀ p, setupSpacetimeMatrix (C.spaces f s c b) p = setupSpacetimeMatrix C p := fun p => by
    unfold setupSpacetimeMatrix; rw [e2]; rfl
  simp only [getSpacetimeMatrix, k1]

theorem congr_getSlabMatrix : getSlabMatrix (C.spaces f s c b) = getSlabMatrix C := by
  have e3 : ∀ p, slabMatOf (C.spaces f s c b) p = slabMatOf C p := fun p => hs.assemble _
  have k2 : ∀ p, setupSlabMatrix (C.spaces f s c b) p = setupSlabMatrix C p := fun p => by
    unfold setupSlabMatrix; simp only [e3]; rfl
  simp only [getSlabMatrix, k2]

end congr

/-! ### Plot tables -/

section plot
variable {C : Cfg V} {ρ : Renum} {κ : ℕ → Kind} (nSpace nSub : ℕ) (ev : ℕ → V → ℝ) (g : ℝ → ℕ → ℝ → ℝ → List ℝ)

theorem plotLoop_renum (hC : C.Ok) (v : Vec) : plotLoop (C.renum ρ) ((mkDofmaps C).renum ρ) nSpace nSub ev g (ren ρ.full v) =
    plotLoop C (mkDofmaps C) nSpace nSub ev g v := by
  have key : ∀ (k : ℤ) (ell : ℕ), (do
        let i ← M.lift (pyIdx (((mkDofmaps C).renum ρ).full 0) k)
        M.modify fun st => { st with slab := Function.update st.slab ell (nodeAt C.fe (ren ρ.full v) i) } : M (PlotSt V) Unit) = (do
        let i ← M.lift (pyIdx ((mkDofmaps C).full 0) k)
        M.modify fun st => { st with slab := Function.update st.slab ell (nodeAt C.fe v i) }) := by
    intro k ell
    have h := pyIdx_map (l := (mkDofmaps C).full 0) (List.map ρ.full) k
    change Out _ _ (pyIdx (((mkDofmaps C).renum ρ).full 0) k) at h
    funext st
    rw [M.bind_run, M.bind_run]
    simp only [M.lift]
    rcases h1 : pyIdx ((mkDofmaps C).full 0) k with _ | a <;> rcases h2 : pyIdx (((mkDofmaps C).renum ρ).full 0) k with _ | a' <;>
      rw [h1, h2] at h <;> simp only [Out] at h
    · rw [h]
    · obtain ⟨ha, rfl⟩ := h
      have := Two.nodeAt_renum (e := ρ.full) (Two.len_full hC (.inl rfl) ha) v
      simp only [this]
  unfold plotLoop
  simp only [Cfg.renum, key]
  rfl

theorem Two.plotTables (hC : C.Ok) {u : Ref} (hu : u.isNode = false) (ku : u.kind κ = .full) :
    Two C ρ κ Eq (Dxss.plotTables C nSpace nSub ev g u) (Dxss.plotTables (C.renum ρ) nSpace nSub ev g u) := by
  refine .bind (.attrDm _) ?_
  rintro _ _ ⟨rfl, rfl⟩
  refine .bind (.getVec u) fun v v' hv => ?_
  rw [vrel hu, ku] at hv
  subst hv
  rw [show plotLoop (C.renum ρ) ((mkDofmaps C).renum ρ) nSpace nSub ev g (ren (ρ.perm .full) v) = _ from plotLoop_renum nSpace nSub ev g hC v]
  split
  · exact .bind .ext fun _ _ _ => .pure rfl
  · exact .raise _

theorem congr_plotTables (f s c b : FSpace) (u : Ref) :
    plotTables (C.spaces f s c b) nSpace nSub ev g u = plotTables C nSpace nSub ev g u := by
  have : plotLoop (C.spaces f s c b) = plotLoop C := by
    funext dm n m e g v
    have k : plotCell (C.spaces f s c b) = plotCell C := rfl
    unfold plotLoop
    rw [k]
    rfl
  unfold plotTables
  rw [this]

end plot

/-! ### The renumbered spaces -/

theorem FSpace.renum_dof {L : FSpace} {m : Fin 4 → ℕ} (h : L.Ok m) (e : Equiv.Perm ℕ) {c : Fin 4} {i s : ℕ} (hi : i < L.nsub c) (hs : s < m c) :
    (L.renum e).dof c i s = e (L.dof c i s) := by
  unfold FSpace.dof FSpace.renum
  exact getD_map _ _ (by rw [h.len c i hi]; exact hs) 0 0

theorem FSpace.Ok.renum {L : FSpace} {m : Fin 4 → ℕ} (h : L.Ok m) {e : Equiv.Perm ℕ} (he : Below e L.size) : (L.renum e).Ok m where
  len c i hi := by
    change ((L.collapse c i).map e).length = _
    rw [List.length_map, h.len c i hi]
  lt c i s hi hs := by
    rw [FSpace.renum_dof h e hi hs]
    exact (he _).2 (h.lt c i s hi hs)
  inj c i s c' i' s' hi hs hi' hs' k := by
    rw [FSpace.renum_dof h e hi hs, FSpace.renum_dof h e hi' hs'] at k
    exact h.inj c i s c' i' s' hi hs hi' hs' (e.injective k)
  surj d hd := by
    obtain ⟨c, i, s, hi, hs, k⟩ := h.surj (e.symm d) ((he.symm d).2 hd)
    exact ⟨c, i, s, hi, hs, by rw [FSpace.renum_dof h e hi hs, k, e.apply_symm_apply]⟩

theorem Cfg.Ok.renum {C : Cfg V} (hC : C.Ok) {ρ : Renum} (hρ : ρ.Fits C) : (C.renum ρ).Ok where
  disc := hC.disc
  full := hC.full.renum hρ.full
  fullN := hC.fullN
  slab := hC.slab.renum hρ.slab
  slabN := hC.slabN
  coup := hC.coup.renum hρ.coup
  coupN := hC.coupN
  bnd := hC.bnd.renum hρ.bnd
  bndN := hC.bndN

end Dxss
