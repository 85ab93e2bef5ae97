import Verif.Model.Coarse
import Verif.Lemmas.Precond

/-! # Prolongation, restriction and coarse correction -/

namespace Dxss
open Finset
set_option linter.unusedSectionVars false
variable {V : Type} [AddCommGroup V] [Module ℝ V]

/-- The worlds differ at most in the vectors of `A`. -/
def Near (A : Set Ref) (w w' : World V) : Prop :=
  w'.obj = w.obj ∧ w'.sched = w.sched ∧ w'.clock = w.clock ∧ ∀ r, r ∉ A → w'.heap r = w.heap r

theorem Near.rfl' {A : Set Ref} {w : World V} : Near A w w := ⟨rfl, rfl, rfl, fun _ _ => rfl⟩
theorem Near.trans {A : Set Ref} {w w' w'' : World V} (h : Near A w w') (h' : Near A w' w'') : Near A w w'' :=
  ⟨h'.1.trans h.1, h'.2.1.trans h.2.1, h'.2.2.1.trans h.2.2.1, fun r hr => (h'.2.2.2 r hr).trans (h.2.2.2 r hr)⟩
theorem Near.mono {A B : Set Ref} (hAB : A ⊆ B) {w w' : World V} (h : Near A w w') : Near B w w' :=
  ⟨h.1, h.2.1, h.2.2.1, fun r hr => h.2.2.2 r fun ha => hr (hAB ha)⟩
theorem Near.put {A : Set Ref} {w w' : World V} (h : Near A w w') {r : Ref} (hr : r ∈ A) (v : Vec) :
    Near A w (w'.put r v) :=
  ⟨h.1, h.2.1, h.2.2.1, fun r' hr' => by
    have hne : r' ≠ r := by rintro rfl; exact hr' hr
    rw [put_ne _ hne]; exact h.2.2.2 r' hr'⟩

/-- One step of a transfer loop: writes the values `val` at the positions `di` of `dst`, changing
besides only vectors in `A`. -/
def Writes (A : Set Ref) (dst : Ref) (di : List ℕ) (val : Vec) (body : WM V Unit) (w : World V) : Prop :=
  ∃ w', body w = (.ok (), w') ∧ Near A w w' ∧ (∀ s < di.length, w'.heap dst (di.getD s 0) = val s) ∧
    ∀ d, d ∉ di → w'.heap dst d = w.heap dst d

theorem writeLoop {α : Type} {A : Set Ref} {dst : Ref} {blocks : List α} {di : α → List ℕ} {val : α → Vec}
    {body : α → WM V Unit} {w : World V}
    (hbody : ∀ a ∈ blocks, ∀ w', Near A w w' → Writes A dst (di a) (val a) (body a) w')
    (hd : ∀ a ∈ blocks, ∀ b ∈ blocks, a ≠ b → ∀ d ∈ di a, d ∉ di b) :
    ∃ w', M.forList blocks body w = (.ok (), w') ∧ Near A w w' ∧
      (∀ a ∈ blocks, ∀ s < (di a).length, w'.heap dst ((di a).getD s 0) = val a s) ∧
      ∀ d, (∀ a ∈ blocks, d ∉ di a) → w'.heap dst d = w.heap dst d := by
  have key := M.forList_inv (body := body) (fun rest w' => (∀ a ∈ rest, a ∈ blocks) ∧ Near A w w' ∧
      (∀ a ∈ blocks, a ∉ rest → ∀ s < (di a).length, w'.heap dst ((di a).getD s 0) = val a s) ∧
      ∀ d, (∀ a ∈ blocks, d ∉ di a) → w'.heap dst d = w.heap dst d) ?_ blocks w
    ⟨fun _ h => h, Near.rfl', fun a h1 h2 => absurd h1 h2, fun _ _ => rfl⟩
  · obtain ⟨w', h1, -, h2, h3, h4⟩ := key
    exact ⟨w', h1, h2, fun a ha => h3 a ha (by simp), h4⟩
  · rintro a l w₁ ⟨hsub, hn, h3, h4⟩
    have ha := hsub a (by simp)
    obtain ⟨w₂, e1, e2, e3, e4⟩ := hbody a ha w₁ hn
    refine ⟨w₂, e1, fun b hb => hsub b (by simp [hb]), hn.trans e2, fun b hb hbl s hs => ?_, fun d hd' => ?_⟩
    · by_cases hab : b = a
      · subst hab; exact e3 s hs
      · rw [e4 _ (hd b hb a ha hab _ (getD_mem' hs))]
        exact h3 b hb (by simp [hab, hbl]) s hs
    · rw [e4 d (hd' a ha), h4 d hd']

/-- If each step succeeds or raises `e`, and one always raises, the loop raises `e`. -/
theorem failLoop {α σ : Type} {P : σ → Prop} {e : PyErr} {l : List α} {body : α → M σ Unit}
    (hstep : ∀ a ∈ l, ∀ s, P s → (∃ s', body a s = (.ok (), s') ∧ P s') ∨ (body a s).1 = .error e)
    {a₀ : α} (h₀ : a₀ ∈ l) (hbad : ∀ s, P s → (body a₀ s).1 = .error e) {s : σ} (hs : P s) :
    (M.forList l body s).1 = .error e := by
  induction l generalizing s with
  | nil => simp at h₀
  | cons a l ih =>
    rw [M.forList_cons, M.bind_run]
    rcases hstep a (by simp) s hs with ⟨s', e1, hs'⟩ | he
    · rw [e1]
      rcases List.mem_cons.1 h₀ with rfl | h₀
      · have := hbad s hs; rw [e1] at this; cases this
      · exact ih (fun b hb => hstep b (by simp [hb])) h₀ hs'
    · rw [he]

/-- Values of the block `(c, i)` of `x` as a coefficient vector with `m` entries. -/
def blockVal (L : FSpace) (m : ℕ) (x : Vec) (c : Fin 4) (i : ℕ) : Vec :=
  fun s => if s < m then x (L.dof c i s) else 0

theorem npFill_block {L : FSpace} {m : ℕ} {x : Vec} {c : Fin 4} {i : ℕ} (h : (L.collapse c i).length = m) :
    npFill m ((L.collapse c i).map x) = .ok (blockVal L m x c i) := by
  unfold npFill
  rw [if_pos (by simpa using h)]
  congr 1
  funext s
  unfold blockVal
  split
  · next hs => rw [getD_map x _ (h ▸ hs) 0]; rfl
  · next hs => exact List.getD_eq_default _ _ (by simp; omega)

/-- What a coarse mesh satisfies whose spaces DOLFINx built with the same orders. -/
structure CoarseMesh.Ok (C : Cfg V) (K : CoarseMesh V) : Prop where
  full : K.full.Ok K.fe.m
  fullN : K.full.nsub = fullSizes C.D.q C.D.qstar C.D.N

/-- The set-up state in which transfers can run. -/
structure CoarseReady (C : Cfg V) (K : CoarseMesh V) (o : Obj V) : Prop where
  dofmaps : o.dofmaps = some (mkDofmaps C)
  maps : o.coarseMaps = some (buildDofmapsFull C.D K.full)
  node : o.coarseNode = some K

/-- Both scalar spaces have the same number of dofs (`k = kstar`). -/
def SameOrder (fe : FE V) : Prop := fe.mP = fe.mD

theorem SameOrder.m {fe : FE V} (h : SameOrder fe) (c : Fin 4) : fe.m c = fe.mP := by
  unfold SameOrder at h
  fin_cases c <;> simp [FE.m, h]

def nodeRefs : Set Ref := {.uNodeFine, .uNodeCoarse}

variable {C : Cfg V} {K : CoarseMesh V}

/-- Body of `prolongation` for one block. -/
def prolBlock (C : Cfg V) (xc xf : Ref) (j : Fin 4) (i : ℤ) : WM V Unit := do
  let cm ← M.attr (fun w => w.obj.coarseMaps) .typeError
  let idx ← M.lift (pyIdx (cm j) i)
  let x ← getVec xc
  let K ← M.attr (fun w => w.obj.coarseNode)
  let a ← M.lift (npFill K.fe.mP (idx.map x))
  setVec .uNodeCoarse a
  setVec .uNodeFine (K.toFine a)
  let f ← getVec .uNodeFine
  let dm ← M.attr (fun w => w.obj.dofmaps) .typeError
  let idx' ← M.lift (pyIdx (dm.full j) i)
  let y ← getVec xf
  let y' ← M.lift (npAssign y idx' ((List.range C.fe.mP).map f))
  setVec xf y'

/-- Body of `restriction` for one block. -/
def restBlock (C : Cfg V) (xc xf : Ref) (j : Fin 4) (i : ℤ) : WM V Unit := do
  let dm ← M.attr (fun w => w.obj.dofmaps) .typeError
  let idx' ← M.lift (pyIdx (dm.full j) i)
  let y ← getVec xf
  let K ← M.attr (fun w => w.obj.coarseNode)
  let a ← M.lift (npFill C.fe.mP (idx'.map y))
  setVec .uNodeFine a
  setVec .uNodeCoarse (K.toCoarse a)
  let f ← getVec .uNodeCoarse
  let cm ← M.attr (fun w => w.obj.coarseMaps) .typeError
  let idx ← M.lift (pyIdx (cm j) i)
  let x ← getVec xc
  let x' ← M.lift (npAssign x idx ((List.range K.fe.mP).map f))
  setVec xc x'

theorem prolBlock_run {w : World V} (hw : CoarseReady C K w.obj) {xc xf : Ref} (hf : xf ∉ nodeRefs)
    {j : Fin 4} {i : ℕ} (hi : i < (C.D.timeOrder j + 1) * C.D.N) :
    prolBlock C xc xf j (i : ℤ) w = match npFill K.fe.mP ((K.full.collapse j i).map (w.heap xc)) with
      | .error e => (.error e, w)
      | .ok a => match npAssign (w.heap xf) (C.full.collapse j i) ((List.range C.fe.mP).map (K.toFine a)) with
        | .error e => (.error e, (w.put .uNodeCoarse a).put .uNodeFine (K.toFine a))
        | .ok y => (.ok (), ((w.put .uNodeCoarse a).put .uNodeFine (K.toFine a)).put xf y) := by
  simp only [nodeRefs, Set.mem_insert_iff, Set.mem_singleton_iff, not_or] at hf
  have e1 : pyIdx (buildDofmapsFull C.D K.full j) (i : ℤ) = .ok (K.full.collapse j i) := full_lookup C.D K.full hi
  have e2 : pyIdx ((mkDofmaps C).full j) (i : ℤ) = .ok (C.full.collapse j i) := full_lookup C.D C.full hi
  have h1 : ∀ w' : World V, w'.obj = w.obj → M.attr (fun w : World V => w.obj.coarseMaps) .typeError w'
      = (.ok (buildDofmapsFull C.D K.full), w') := fun w' h => M.attr_some (by rw [h, hw.maps])
  have h2 : ∀ w' : World V, w'.obj = w.obj → M.attr (fun w : World V => w.obj.coarseNode) .attributeError w'
      = (.ok K, w') := fun w' h => M.attr_some (by rw [h, hw.node])
  have h3 : ∀ w' : World V, w'.obj = w.obj → M.attr (fun w : World V => w.obj.dofmaps) .typeError w'
      = (.ok (mkDofmaps C), w') := fun w' h => M.attr_some (by rw [h, hw.dofmaps])
  unfold prolBlock
  rw [M.bind_ok (h1 w rfl), M.bind_ok (by rw [M.lift_run, e1]), M.bind_ok (getVec_run _ _), M.bind_ok (h2 w rfl)]
  rcases hnp : npFill K.fe.mP ((K.full.collapse j i).map (w.heap xc)) with e | a
  · rw [M.bind_error (by rw [M.lift_run])]
  · rw [M.bind_ok (by rw [M.lift_run]), M.bind_ok (setVec_run _ _ _), M.bind_ok (setVec_run _ _ _),
      M.bind_ok (getVec_run _ _), M.bind_ok (h3 ((w.put .uNodeCoarse a).put .uNodeFine (K.toFine a)) rfl), M.bind_ok (by rw [M.lift_run, e2]), M.bind_ok (getVec_run _ _)]
    simp only [put_same, put_ne _ hf.1, put_ne _ hf.2]
    rcases hna : npAssign (w.heap xf) (C.full.collapse j i) ((List.range C.fe.mP).map (K.toFine a)) with e | y
    · rw [M.bind_error (by rw [M.lift_run])]
    · rw [M.bind_ok (by rw [M.lift_run]), setVec_run]

theorem restBlock_run {w : World V} (hw : CoarseReady C K w.obj) {xc xf : Ref} (hc : xc ∉ nodeRefs)
    {j : Fin 4} {i : ℕ} (hi : i < (C.D.timeOrder j + 1) * C.D.N) :
    restBlock C xc xf j (i : ℤ) w = match npFill C.fe.mP ((C.full.collapse j i).map (w.heap xf)) with
      | .error e => (.error e, w)
      | .ok a => match npAssign (w.heap xc) (K.full.collapse j i) ((List.range K.fe.mP).map (K.toCoarse a)) with
        | .error e => (.error e, (w.put .uNodeFine a).put .uNodeCoarse (K.toCoarse a))
        | .ok y => (.ok (), ((w.put .uNodeFine a).put .uNodeCoarse (K.toCoarse a)).put xc y) := by
  simp only [nodeRefs, Set.mem_insert_iff, Set.mem_singleton_iff, not_or] at hc
  have e1 : pyIdx (buildDofmapsFull C.D K.full j) (i : ℤ) = .ok (K.full.collapse j i) := full_lookup C.D K.full hi
  have e2 : pyIdx ((mkDofmaps C).full j) (i : ℤ) = .ok (C.full.collapse j i) := full_lookup C.D C.full hi
  have h1 : ∀ w' : World V, w'.obj = w.obj → M.attr (fun w : World V => w.obj.coarseMaps) .typeError w'
      = (.ok (buildDofmapsFull C.D K.full), w') := fun w' h => M.attr_some (by rw [h, hw.maps])
  have h2 : ∀ w' : World V, w'.obj = w.obj → M.attr (fun w : World V => w.obj.coarseNode) .attributeError w'
      = (.ok K, w') := fun w' h => M.attr_some (by rw [h, hw.node])
  have h3 : ∀ w' : World V, w'.obj = w.obj → M.attr (fun w : World V => w.obj.dofmaps) .typeError w'
      = (.ok (mkDofmaps C), w') := fun w' h => M.attr_some (by rw [h, hw.dofmaps])
  unfold restBlock
  rw [M.bind_ok (h3 w rfl), M.bind_ok (by rw [M.lift_run, e2]), M.bind_ok (getVec_run _ _), M.bind_ok (h2 w rfl)]
  rcases hnp : npFill C.fe.mP ((C.full.collapse j i).map (w.heap xf)) with e | a
  · rw [M.bind_error (by rw [M.lift_run])]
  · rw [M.bind_ok (by rw [M.lift_run]), M.bind_ok (setVec_run _ _ _), M.bind_ok (setVec_run _ _ _),
      M.bind_ok (getVec_run _ _), M.bind_ok (h1 ((w.put .uNodeFine a).put .uNodeCoarse (K.toCoarse a)) rfl), M.bind_ok (by rw [M.lift_run, e1]), M.bind_ok (getVec_run _ _)]
    simp only [put_same, put_ne _ hc.1, put_ne _ hc.2]
    rcases hna : npAssign (w.heap xc) (K.full.collapse j i) ((List.range K.fe.mP).map (K.toCoarse a)) with e | y
    · rw [M.bind_error (by rw [M.lift_run])]
    · rw [M.bind_ok (by rw [M.lift_run]), setVec_run]

theorem npAssign_range {a f : Vec} {idx : List ℕ} {m : ℕ} (hn : idx.Nodup) (hl : idx.length = m) :
    ∃ v, npAssign a idx ((List.range m).map f) = .ok v ∧ (∀ s < idx.length, v (idx.getD s 0) = f s) ∧
      ∀ d, d ∉ idx → v d = a d := by
  obtain ⟨v, h1, h2, h3⟩ := npAssign_spec a f idx (List.range m) hn (by simp [hl])
  refine ⟨v, h1, fun s hs => ?_, h3⟩
  rw [h2 s hs, List.getD_eq_getElem _ _ (by simp; omega)]
  simp

/-- `dst` holds `itp` applied to each block of `x`. -/
def Transferred (Ls Ld : FSpace) (ms md : ℕ) (itp : Vec → Vec) (x y : Vec) : Prop :=
  ∀ c i s, i < Ld.nsub c → s < md → y (Ld.dof c i s) = itp (blockVal Ls ms x c i) s

/-- The slab and block loops around a block body. -/
def xferLoop (D : Disc V) (blk : Fin 4 → ℤ → WM V Unit) : WM V Unit :=
  slabForM D.q D.qstar D.N fun c _ => blockLoop D c fun j i _ => blk j i

theorem prolongation_eq (xc xf : Ref) : prolongation C xc xf = xferLoop C.D (prolBlock C xc xf) := rfl
theorem restriction_eq (xc xf : Ref) : restriction C xc xf = xferLoop C.D (restBlock C xc xf) := rfl

/-- The loops visit every block once. -/
theorem xferLoop_run {A : Set Ref} {dst : Ref} {Ld : FSpace} {m : Fin 4 → ℕ} (hL : Ld.Ok m)
    (hN : Ld.nsub = fullSizes C.D.q C.D.qstar C.D.N) {val : Fin 4 → ℕ → Vec} {blk : Fin 4 → ℤ → WM V Unit} {w : World V}
    (hb : ∀ j i w', i < (C.D.timeOrder j + 1) * C.D.N → Near A w w' →
      Writes A dst (Ld.collapse j i) (val j i) (blk j (i : ℤ)) w') :
    ∃ w', xferLoop C.D blk w = (.ok (), w') ∧ Near A w w' ∧
      (∀ c i s, i < Ld.nsub c → s < m c → w'.heap dst (Ld.dof c i s) = val c i s) ∧
      ∀ d, Ld.size ≤ d → w'.heap dst d = w.heap dst d := by
  have hns : ∀ c, Ld.nsub c = (C.D.timeOrder c + 1) * C.D.N := fun c => by rw [hN, fullSizes_eq]
  have key := slabForM_ok (q := C.D.q) (qstar := C.D.qstar) (N := C.D.N)
    (body := fun c _ => blockLoop C.D c fun j i _ => blk j i)
    (fun n w' => Near A w w' ∧
      (∀ c i s, i < (C.D.timeOrder c + 1) * n → s < m c → w'.heap dst (Ld.dof c i s) = val c i s) ∧
      ∀ d, Ld.size ≤ d → w'.heap dst d = w.heap dst d) ?_ w
    ⟨Near.rfl', fun c i s hi => by simp at hi, fun _ _ => rfl⟩
  · obtain ⟨w', e, h1, h2, h3⟩ := key
    exact ⟨w', e, h1, fun c i s hi => h2 c i s (by rw [← hns]; exact hi), h3⟩
  · rintro n w₁ hn ⟨h1, h2, h3⟩
    rw [blockLoop_eq]
    have hlt : ∀ p ∈ blockList (slabSizes C.D.q C.D.qstar),
        slabIx C.D n p.1 p.2 < (C.D.timeOrder p.1 + 1) * C.D.N := fun p hp => by
      have hp := mem_blockList.1 hp
      rw [slabSizes_eq] at hp
      exact slabIx_lt hn hp
    obtain ⟨w₂, e, g1, g2, g3⟩ := writeLoop (A := A) (dst := dst) (w := w₁)
      (blocks := blockList (slabSizes C.D.q C.D.qstar))
      (di := fun p => Ld.collapse p.1 (slabIx C.D n p.1 p.2)) (val := fun p => val p.1 (slabIx C.D n p.1 p.2))
      (body := fun p => blk p.1 ((ctr C.D.q C.D.qstar n).shift p.1 + (p.2 : ℕ)))
      (fun p hp w' hw' => by
        rw [shift_eq]
        exact hb _ _ w' (hlt p hp) (h1.trans hw'))
      (fun p hp p' hp' hpp => hL.disjoint (by rw [hns]; exact hlt p hp) (by rw [hns]; exact hlt p' hp') fun h => hpp (by
        rcases p with ⟨c, l⟩; rcases p' with ⟨c', l'⟩
        obtain ⟨rfl, h2⟩ := h
        simp only [slabIx] at h2
        exact Prod.ext rfl (by simp only; omega)))
    refine ⟨w₂, e, h1.trans g1, fun c i s hi hs => ?_, fun d hd => ?_⟩
    · by_cases hin : i < (C.D.timeOrder c + 1) * n
      · rw [g3 _ fun p hp => ?_, h2 c i s hin hs]
        intro hmem
        have hi' : i < Ld.nsub c := by
          rw [hns]; exact hin.trans_le (Nat.mul_le_mul_left _ hn.le)
        have hp' : slabIx C.D n p.1 p.2 < Ld.nsub p.1 := by rw [hns]; exact hlt p hp
        obtain ⟨s', hs', he⟩ := (hL.mem_iff hp').1 hmem
        obtain ⟨hc, hii, -⟩ := hL.inj _ _ _ _ _ _ hp' hs' hi' hs he
        rw [← hc, ← hii] at hin
        simp only [slabIx] at hin
        nlinarith
      · obtain ⟨l, rfl⟩ : ∃ l, i = slabIx C.D n c l := ⟨i - n * (C.D.timeOrder c + 1), by
          unfold slabIx; rw [mul_comm] at hin; omega⟩
        have hl : l < slabSizes C.D.q C.D.qstar c := by
          rw [slabSizes_eq]; unfold slabIx at hi; nlinarith
        have hp := mem_blockList (n := slabSizes C.D.q C.D.qstar) (p := (c, l)) |>.2 hl
        exact g2 (c, l) hp s (by
          rw [hL.len _ _ (by rw [hns]; exact hlt _ hp)]; exact hs)
    · rw [g3 d fun p hp hmem => ?_, h3 d hd]
      have hp' : slabIx C.D n p.1 p.2 < Ld.nsub p.1 := by rw [hns]; exact hlt p hp
      obtain ⟨s, hs, rfl⟩ := (hL.mem_iff hp').1 hmem
      exact absurd (hL.lt _ _ s hp' hs) (by omega)

theorem nodeRefs_sub (x : Ref) : nodeRefs ⊆ insert x nodeRefs := Set.subset_insert _ _

/-- Run of `prolongation`. -/
theorem prolongation_run (hC : C.Ok) (hK : K.Ok C) (hsf : SameOrder C.fe) (hsc : SameOrder K.fe) {w : World V}
    (hw : CoarseReady C K w.obj) {xc xf : Ref} (hne : xc ≠ xf) (hc : xc ∉ nodeRefs) (hf : xf ∉ nodeRefs) :
    ∃ w', prolongation C xc xf w = (.ok (), w') ∧ Near (insert xf nodeRefs) w w' ∧
      Transferred K.full C.full K.fe.mP C.fe.mP K.toFine (w.heap xc) (w'.heap xf) ∧
      ∀ d, C.full.size ≤ d → w'.heap xf d = w.heap xf d := by
  rw [prolongation_eq]
  have hb : ∀ j i (w' : World V), i < (C.D.timeOrder j + 1) * C.D.N → Near (insert xf nodeRefs) w w' →
      Writes (insert xf nodeRefs) xf (C.full.collapse j i) (K.toFine (blockVal K.full K.fe.mP (w.heap xc) j i)) (prolBlock C xc xf j (i : ℤ)) w' := by
    intro j i w₁ hi hn
    have hi₁ : i < C.full.nsub j := by rw [hC.fullN, fullSizes_eq]; exact hi
    have hi₂ : i < K.full.nsub j := by rw [hK.fullN, fullSizes_eq]; exact hi
    have hx : w₁.heap xc = w.heap xc := hn.2.2.2 _ (by simp [hne, hc])
    obtain ⟨v, e1, e2, e3⟩ := npAssign_range (a := w₁.heap xf)
      (f := K.toFine (blockVal K.full K.fe.mP (w.heap xc) j i)) (hC.full.nodup hi₁)
      ((hC.full.len j i hi₁).trans (hsf.m j))
    have hr := prolBlock_run (xc := xc) (by rw [hn.1]; exact hw : CoarseReady C K w₁.obj) hf hi
    rw [hx, npFill_block ((hK.full.len j i hi₂).trans (hsc.m j))] at hr
    simp only [e1] at hr
    refine ⟨_, hr, ?_, fun s hs => by rw [put_same]; exact e2 s hs, fun d hd => by rw [put_same]; exact e3 d hd⟩
    exact ((Near.rfl'.put (by simp [nodeRefs]) _).put (by simp [nodeRefs]) _).put (by simp) _
  obtain ⟨w', e, h1, h2, h3⟩ := xferLoop_run (C := C) (A := insert xf nodeRefs) (dst := xf) hC.full hC.fullN
    (val := fun c i => K.toFine (blockVal K.full K.fe.mP (w.heap xc) c i)) (blk := prolBlock C xc xf) (w := w) hb
  exact ⟨w', e, h1, fun c i s hi hs => h2 c i s hi (by rw [hsf.m]; exact hs), h3⟩

/-- Run of `restriction`. -/
theorem restriction_run (hC : C.Ok) (hK : K.Ok C) (hsf : SameOrder C.fe) (hsc : SameOrder K.fe) {w : World V}
    (hw : CoarseReady C K w.obj) {xc xf : Ref} (hne : xc ≠ xf) (hc : xc ∉ nodeRefs) (hf : xf ∉ nodeRefs) :
    ∃ w', restriction C xc xf w = (.ok (), w') ∧ Near (insert xc nodeRefs) w w' ∧
      Transferred C.full K.full C.fe.mP K.fe.mP K.toCoarse (w.heap xf) (w'.heap xc) ∧
      ∀ d, K.full.size ≤ d → w'.heap xc d = w.heap xc d := by
  rw [restriction_eq]
  have hb : ∀ j i (w' : World V), i < (C.D.timeOrder j + 1) * C.D.N → Near (insert xc nodeRefs) w w' →
      Writes (insert xc nodeRefs) xc (K.full.collapse j i) (K.toCoarse (blockVal C.full C.fe.mP (w.heap xf) j i)) (restBlock C xc xf j (i : ℤ)) w' := by
    intro j i w₁ hi hn
    have hi₁ : i < C.full.nsub j := by rw [hC.fullN, fullSizes_eq]; exact hi
    have hi₂ : i < K.full.nsub j := by rw [hK.fullN, fullSizes_eq]; exact hi
    have hx : w₁.heap xf = w.heap xf := hn.2.2.2 _ (by simp [hne.symm, hf])
    obtain ⟨v, e1, e2, e3⟩ := npAssign_range (a := w₁.heap xc)
      (f := K.toCoarse (blockVal C.full C.fe.mP (w.heap xf) j i)) (hK.full.nodup hi₂)
      ((hK.full.len j i hi₂).trans (hsc.m j))
    have hr := restBlock_run (xf := xf) (by rw [hn.1]; exact hw : CoarseReady C K w₁.obj) hc hi
    rw [hx, npFill_block ((hC.full.len j i hi₁).trans (hsf.m j))] at hr
    simp only [e1] at hr
    refine ⟨_, hr, ?_, fun s hs => by rw [put_same]; exact e2 s hs, fun d hd => by rw [put_same]; exact e3 d hd⟩
    exact ((Near.rfl'.put (by simp [nodeRefs]) _).put (by simp [nodeRefs]) _).put (by simp) _
  obtain ⟨w', e, h1, h2, h3⟩ := xferLoop_run (C := C) (A := insert xc nodeRefs) (dst := xc) hK.full hK.fullN
    (val := fun c i => K.toCoarse (blockVal C.full C.fe.mP (w.heap xf) c i)) (blk := restBlock C xc xf) (w := w) hb
  exact ⟨w', e, h1, fun c i s hi hs => h2 c i s hi (by rw [hsc.m]; exact hs), h3⟩

end Dxss
