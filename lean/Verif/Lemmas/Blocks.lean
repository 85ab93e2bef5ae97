import Verif.Lemmas.Monad
import Verif.Lemmas.Assembly
import Mathlib.Data.List.GetD

/-! # numpy block copies and the block loops -/

namespace Dxss
open Finset

/-! ### scatter -/

theorem scatter_notMem (a : Vec) (idx : List ℕ) (vs : List ℝ) {d : ℕ} (h : d ∉ idx) :
    scatter a idx vs d = a d := by
  induction idx generalizing a vs with
  | nil => cases vs <;> rfl
  | cons i is ih =>
    cases vs with
    | nil => rfl
    | cons v vs =>
      simp only [List.mem_cons, not_or] at h
      rw [scatter, ih _ _ h.2, Function.update_of_ne h.1]

theorem scatter_get (a : Vec) (idx : List ℕ) (vs : List ℝ) (hn : idx.Nodup)
    (hl : vs.length = idx.length) {s : ℕ} (hs : s < idx.length) :
    scatter a idx vs (idx.getD s 0) = vs.getD s 0 := by
  induction idx generalizing a vs s with
  | nil => simp at hs
  | cons i is ih =>
    cases vs with
    | nil => simp at hl
    | cons v vs =>
      rw [List.nodup_cons] at hn
      cases s with
      | zero => simp [scatter, scatter_notMem _ _ _ hn.1]
      | succ s =>
        simp only [scatter, List.getD_cons_succ]
        exact ih _ _ hn.2 (by simpa using hl) (by simpa using hs)

theorem getD_map {α β : Type*} (f : α → β) (l : List α) {s : ℕ} (hs : s < l.length) (a : α) (b : β) :
    (l.map f).getD s b = f (l.getD s a) := by
  rw [List.getD_eq_getElem _ _ (by simpa using hs), List.getD_eq_getElem _ _ hs, List.getElem_map]

theorem getD_mem' {l : List ℕ} {s : ℕ} (hs : s < l.length) : l.getD s 0 ∈ l := by
  rw [List.getD_eq_getElem _ _ hs]; exact List.getElem_mem hs

/-- The value written by `a[idx] = v`. -/
theorem npAssign_spec (a x : Vec) (idx idx' : List ℕ) (hn : idx.Nodup)
    (hl : idx'.length = idx.length) :
    ∃ v, npAssign a idx (idx'.map x) = .ok v ∧
      (∀ s < idx.length, v (idx.getD s 0) = x (idx'.getD s 0)) ∧ ∀ d ∉ idx, v d = a d := by
  refine ⟨scatter a idx (idx'.map x), by simp [npAssign, hl], fun s hs => ?_,
    fun d hd => scatter_notMem _ _ _ hd⟩
  rw [scatter_get _ _ _ hn (by simpa using hl) hs, getD_map x idx' (by omega) 0]

theorem npAddAssign_spec (a x : Vec) (idx idx' : List ℕ) (hn : idx.Nodup)
    (hl : idx'.length = idx.length) :
    npAddAssign a idx (idx'.map x) = .ok (fun d => a d +
      ∑ s ∈ range idx.length, if idx.getD s 0 = d then x (idx'.getD s 0) else 0) := by
  have hz : (List.zipWith (· + ·) (idx.map a) (idx'.map x)).length = idx.length := by simp [hl]
  simp only [npAddAssign, List.length_map, hl, if_true, npAssign, hz]
  congr 1
  funext d
  by_cases hd : d ∈ idx
  · obtain ⟨s, hs, rfl⟩ := List.getElem_of_mem hd
    rw [← List.getD_eq_getElem _ 0 hs, scatter_get _ _ _ hn hz hs, sum_eq_single s]
    · rw [List.getD_eq_getElem _ _ (by rw [hz]; exact hs), List.getElem_zipWith]
      simp only [List.getElem_map, if_true]
      rw [List.getD_eq_getElem _ _ hs, List.getD_eq_getElem _ _ (hl ▸ hs)]
    · intro t ht hne
      rw [if_neg]
      intro h
      rw [List.getD_eq_getElem _ _ hs, List.getD_eq_getElem _ _ (mem_range.1 ht)] at h
      exact hne ((hn.getElem_inj_iff).1 h)
    · intro h; exact absurd (mem_range.2 hs) h
  · rw [scatter_notMem _ _ _ hd, sum_eq_zero, add_zero]
    intro s hs
    rw [if_neg]
    rintro rfl
    exact hd (getD_mem' (mem_range.1 hs))

/-! ### block operations on the heap -/

variable {V : Type} [AddCommGroup V] [Module ℝ V]

/-- The world with vector `r` replaced. -/
def World.put (w : World V) (r : Ref) (v : Vec) : World V :=
  { w with heap := Function.update w.heap r v }

@[simp] theorem put_obj (w : World V) (r : Ref) (v : Vec) : (w.put r v).obj = w.obj := rfl
@[simp] theorem put_sched (w : World V) (r : Ref) (v : Vec) : (w.put r v).sched = w.sched := rfl
@[simp] theorem put_clock (w : World V) (r : Ref) (v : Vec) : (w.put r v).clock = w.clock := rfl
@[simp] theorem put_same (w : World V) (r : Ref) (v : Vec) : (w.put r v).heap r = v := by
  simp [World.put]
theorem put_ne (w : World V) {r r' : Ref} (h : r' ≠ r) (v : Vec) : (w.put r v).heap r' = w.heap r' := by
  simp [World.put, h]
@[simp] theorem put_put (w : World V) (r : Ref) (v v' : Vec) : (w.put r v).put r v' = w.put r v' := by
  simp [World.put]
@[simp] theorem put_self (w : World V) (r : Ref) : w.put r (w.heap r) = w := by
  simp [World.put]

@[simp] theorem setVec_run (r : Ref) (v : Vec) (w : World V) : setVec r v w = (.ok (), w.put r v) := rfl
@[simp] theorem getVec_run (r : Ref) (w : World V) : getVec r w = (.ok (w.heap r), w) := rfl
@[simp] theorem modObj_run (f : Obj V → Obj V) (w : World V) :
    modObj f w = (.ok (), { w with obj := f w.obj }) := rfl

theorem copyBlock_run (w : World V) (dst src : Ref) (idx idx' : List ℕ) (hn : idx.Nodup)
    (hl : idx'.length = idx.length) :
    ∃ v, copyBlock dst idx src idx' w = (.ok (), w.put dst v) ∧
      (∀ s < idx.length, v (idx.getD s 0) = w.heap src (idx'.getD s 0)) ∧
      ∀ d ∉ idx, v d = w.heap dst d := by
  obtain ⟨v, h1, h2, h3⟩ := npAssign_spec (w.heap dst) (w.heap src) idx idx' hn hl
  refine ⟨v, ?_, h2, h3⟩
  simp [copyBlock, M.bind_run, h1]

theorem addBlock_run (w : World V) (dst src : Ref) (idx idx' : List ℕ) (hn : idx.Nodup)
    (hl : idx'.length = idx.length) :
    addBlock dst idx src idx' w = (.ok (), w.put dst fun d => w.heap dst d +
      ∑ s ∈ range idx.length, if idx.getD s 0 = d then w.heap src (idx'.getD s 0) else 0) := by
  simp only [addBlock, M.bind_run, getVec_run, M.lift_run, npAddAssign_spec _ _ _ _ hn hl,
    setVec_run]

/-- A loop whose body copies block `si a` of `src` to block `di a` of `dst`. -/
theorem copyLoop {α : Type} (w : World V) (dst src : Ref) (hne : src ≠ dst) (blocks : List α)
    (di si : α → List ℕ) (body : α → WM V Unit)
    (hbody : ∀ a ∈ blocks, ∀ v, body a (w.put dst v) = copyBlock dst (di a) src (si a) (w.put dst v))
    (hn : ∀ a ∈ blocks, (di a).Nodup) (hl : ∀ a ∈ blocks, (si a).length = (di a).length)
    (hd : ∀ a ∈ blocks, ∀ b ∈ blocks, a ≠ b → ∀ d ∈ di a, d ∉ di b) :
    ∃ v, M.forList blocks body w = (.ok (), w.put dst v) ∧
      (∀ a ∈ blocks, ∀ s < (di a).length, v ((di a).getD s 0) = w.heap src ((si a).getD s 0)) ∧
      ∀ d, (∀ a ∈ blocks, d ∉ di a) → v d = w.heap dst d := by
  have key := M.forList_inv (body := body) (fun rest w' => (∀ a ∈ rest, a ∈ blocks) ∧
      ∃ v, w' = w.put dst v ∧
      (∀ a ∈ blocks, a ∉ rest → ∀ s < (di a).length,
        v ((di a).getD s 0) = w.heap src ((si a).getD s 0)) ∧
      ∀ d, (∀ a ∈ blocks, d ∉ di a) → v d = w.heap dst d) ?_ blocks w
    ⟨fun _ h => h, w.heap dst, by simp, fun a h1 h2 => absurd h1 h2, fun _ _ => rfl⟩
  · obtain ⟨w', h1, -, v, rfl, h3, h4⟩ := key
    exact ⟨v, h1, fun a ha => h3 a ha (by simp), h4⟩
  · rintro a l _ ⟨hsub, v, rfl, h3, h4⟩
    have ha := hsub a (by simp)
    obtain ⟨v', e1, e2, e3⟩ := copyBlock_run (w.put dst v) dst src (di a) (si a) (hn a ha) (hl a ha)
    refine ⟨w.put dst v', by rw [hbody a ha, e1, put_put], fun b hb => hsub b (by simp [hb]), v', rfl,
      fun b hb hbl s hs => ?_, fun d hd' => ?_⟩
    · by_cases hab : b = a
      · subst hab; rw [e2 s hs, put_ne _ hne]
      · rw [e3 _ (hd b hb a ha hab _ (getD_mem' hs)), put_same]
        exact h3 b hb (by simp [hab, hbl]) s hs
    · rw [e3 d (hd' a ha), put_same, h4 d hd']

/-- A loop whose body adds block `si a` of `src` to block `di a` of `dst`. -/
theorem addLoop {α : Type} (w : World V) (dst src : Ref) (hne : src ≠ dst) (blocks : List α)
    (di si : α → List ℕ) (body : α → WM V Unit)
    (hbody : ∀ a ∈ blocks, ∀ v, body a (w.put dst v) = addBlock dst (di a) src (si a) (w.put dst v))
    (hn : ∀ a ∈ blocks, (di a).Nodup) (hl : ∀ a ∈ blocks, (si a).length = (di a).length) :
    M.forList blocks body w = (.ok (), w.put dst fun d => w.heap dst d +
      (blocks.map fun a => ∑ s ∈ range (di a).length,
        if (di a).getD s 0 = d then w.heap src ((si a).getD s 0) else 0).sum) := by
  induction blocks using List.reverseRecOn with
  | nil => simp
  | append_singleton l a ih =>
    have ha : a ∈ l ++ [a] := by simp
    have hl' : ∀ b ∈ l, b ∈ l ++ [a] := fun b hb => by simp [hb]
    rw [M.forList_append, M.bind_ok (ih (fun b hb => hbody b (hl' b hb)) (fun b hb => hn b (hl' b hb))
      (fun b hb => hl b (hl' b hb))), M.forList_cons]
    have := addBlock_run (w.put dst fun d => w.heap dst d +
      (l.map fun a => ∑ s ∈ range (di a).length,
        if (di a).getD s 0 = d then w.heap src ((si a).getD s 0) else 0).sum) dst src (di a) (si a)
        (hn a ha) (hl a ha)
    rw [← hbody a ha] at this
    rw [M.bind_ok this, M.forList_nil, M.ret_run, put_put]
    congr 2
    funext d
    rw [put_ne _ hne]
    simp [add_assoc]

end Dxss
