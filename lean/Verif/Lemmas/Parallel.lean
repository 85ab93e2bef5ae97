import Verif.Model.Parallel
import Verif.Lemmas.MatrixFree

/-! # Arrays with bounds -/

namespace Dxss.Par
open Finset
variable {V : Type} [AddCommGroup V] [Module ℝ V]

/-- An array as a function, zero outside. -/
def abs (a : Arr) : Vec := fun d => a.getD d 0

/-- `x` returns something in `Q` if `P`, and raises `IndexError` otherwise. -/
def Good {α : Type} (P : Prop) (x : Py α) (Q : α → Prop) : Prop :=
  (P ∧ ∃ a, x = .ok a ∧ Q a) ∨ (¬ P ∧ x = .error .indexError)

theorem Good.bind {α β : Type} {P P' : Prop} {x : Py α} {f : α → Py β} {Q : α → Prop} {Q' : β → Prop}
    (h : Good P x Q) (h' : ∀ a, Q a → Good P' (f a) Q') : Good (P ∧ P') (x >>= f) Q' := by
  rcases h with ⟨hp, a, rfl, hq⟩ | ⟨hp, rfl⟩
  · rcases h' a hq with ⟨hp', b, e, hq'⟩ | ⟨hp', e⟩
    · exact .inl ⟨⟨hp, hp'⟩, b, e, hq'⟩
    · exact .inr ⟨fun h => hp' h.2, e⟩
  · exact .inr ⟨fun h => hp h.1, rfl⟩

theorem Good.mono {α : Type} {P P' : Prop} {x : Py α} {Q Q' : α → Prop} (h : Good P x Q)
    (hp : P ↔ P') (hq : ∀ a, Q a → Q' a) : Good P' x Q' := by
  rcases h with ⟨h, a, e, q⟩ | ⟨h, e⟩
  · exact .inl ⟨hp.1 h, a, e, hq a q⟩
  · exact .inr ⟨fun h' => h (hp.2 h'), e⟩

theorem Good.ok {α : Type} {a : α} {Q : α → Prop} (h : Q a) : Good True (.ok a) Q :=
  .inl ⟨trivial, a, rfl, h⟩

theorem Good.pre {α : Type} {P : Prop} {x : Py α} {Q : α → Prop} (h : Good P x Q) :
    Good P x (fun a => P ∧ Q a) := by
  rcases h with ⟨h, a, e, q⟩ | h
  · exact .inl ⟨h, a, e, h, q⟩
  · exact .inr h

def InRange (idx : List ℕ) (n : ℕ) : Prop := ∀ i ∈ idx, i < n

theorem take_good (a : Arr) (idx : List ℕ) :
    Good (InRange idx a.length) (take a idx) (fun v => v = idx.map (abs a)) := by
  unfold take InRange
  split
  · exact .inl ⟨by assumption, _, rfl, rfl⟩
  · exact .inr ⟨by assumption, rfl⟩

theorem set_fold (l : List (ℕ × ℝ)) (a : Arr) (h : ∀ p ∈ l, p.1 < a.length) :
    (l.foldl (fun a p => a.set p.1 p.2) a).length = a.length ∧
    abs (l.foldl (fun a p => a.set p.1 p.2) a) = scatter (abs a) (l.map Prod.fst) (l.map Prod.snd) := by
  induction l generalizing a with
  | nil => exact ⟨rfl, rfl⟩
  | cons p l ih =>
    have h0 := h p (by simp)
    obtain ⟨h1, h2⟩ := ih (a.set p.1 p.2) (fun p' hp' => by rw [List.length_set]; exact h p' (by simp [hp']))
    refine ⟨by rw [List.foldl_cons, h1, List.length_set], ?_⟩
    rw [List.foldl_cons, h2, List.map_cons, List.map_cons, scatter]
    congr 1
    funext d
    simp only [abs, List.getD_eq_getElem?_getD, List.getElem?_set, Function.update_apply]
    by_cases hd : d = p.1
    · subst hd; simp [h0]
    · rw [if_neg (Ne.symm hd), if_neg hd]

theorem put_good (a : Arr) (idx : List ℕ) (v : Arr) (hl : v.length = idx.length) :
    Good (InRange idx a.length) (put a idx v)
      (fun a' => a'.length = a.length ∧ abs a' = scatter (abs a) idx v) := by
  unfold put InRange
  split
  · rename_i h
    refine .inl ⟨h, _, rfl, ?_⟩
    have := set_fold (idx.zip v) a fun p hp => h _ (List.of_mem_zip hp).1
    rwa [List.map_fst_zip hl.ge, List.map_snd_zip hl.le] at this
  · exact .inr ⟨by assumption, rfl⟩

theorem copy_good (dst src : Arr) (idx idx' : List ℕ) (hl : idx'.length = idx.length) :
    Good (InRange idx dst.length ∧ InRange idx' src.length) (copy dst src idx idx')
      (fun a' => a'.length = dst.length ∧ abs a' = scatter (abs dst) idx (idx'.map (abs src))) := by
  unfold copy
  refine ((take_good src idx').bind (P' := InRange idx dst.length) fun v hv => ?_).mono and_comm
    fun _ h => h
  subst hv
  exact put_good _ _ _ (by simpa using hl)

theorem addTo_good (dst src : Arr) (idx idx' : List ℕ) (hl : idx'.length = idx.length) :
    Good (InRange idx dst.length ∧ InRange idx' src.length) (addTo dst src idx idx')
      (fun a' => a'.length = dst.length ∧
        abs a' = scatter (abs dst) idx (List.zipWith (· + ·) (idx.map (abs dst)) (idx'.map (abs src)))) := by
  unfold addTo
  refine ((take_good dst idx).bind (P' := InRange idx' src.length ∧ InRange idx dst.length) fun u hu => ?_).mono
    ⟨fun h => ⟨h.1, h.2.1⟩, fun h => ⟨h.1, h.2, h.1⟩⟩ fun _ h => h
  subst hu
  refine (take_good src idx').bind fun v hv => ?_
  subst hv
  have hz : add (idx.map (abs dst)) (idx'.map (abs src))
      = .ok (List.zipWith (· + ·) (idx.map (abs dst)) (idx'.map (abs src))) := by
    unfold add; rw [if_pos (by simpa using hl.symm)]
  rw [hz]
  exact put_good _ _ _ (by simp [hl])

/-- A loop of array statements against the same loop on total functions. -/
theorem fold_good {α : Type} {n : ℕ} (f : Arr → α → Py Arr) (g : α → WM V Unit) (P : α → Prop) (w : World V)
    (r : Ref) (l : List α)
    (h : ∀ x ∈ l, ∀ a : Arr, a.length = n → Good (P x) (f a x) fun a' => a'.length = n ∧
      g x (w.put r (abs a)) = (.ok (), w.put r (abs a'))) (a : Arr) (ha : a.length = n) :
    Good (∀ x ∈ l, P x) (l.foldlM f a) fun a' => a'.length = n ∧
      M.forList l g (w.put r (abs a)) = (.ok (), w.put r (abs a')) := by
  induction l generalizing a with
  | nil => exact (Good.ok ⟨ha, rfl⟩).mono (by simp) fun _ h => h
  | cons x l ih =>
    rw [List.foldlM_cons]
    refine ((h x (by simp) a ha).bind (P' := ∀ y ∈ l, P y) fun a' ha' => ?_).mono (by simp) fun _ h => h
    refine (ih (fun y hy => h y (by simp [hy])) a' ha'.1).mono Iff.rfl fun b hb => ⟨hb.1, ?_⟩
    rw [M.forList, M.bind_ok ha'.2]
    exact hb.2

section loops
variable {m : Fin 4 → ℕ} {big small : FSpace} {ix : Fin 4 → ℕ → ℕ} (E : Emb m big small ix)

/-- All dofs of the blocks are entries of arrays of length `nS` (small space) and `nB` (big space). -/
def Fits (big small : FSpace) (ix : Fin 4 → ℕ → ℕ) (nS nB : ℕ) : Prop :=
  ∀ p ∈ blockList small.nsub, InRange (small.collapse p.1 p.2) nS ∧ InRange (big.collapse p.1 (ix p.1 p.2)) nB

def blocks (big small : FSpace) (ix : Fin 4 → ℕ → ℕ) : List (List ℕ × List ℕ) :=
  (blockList small.nsub).map fun p => (small.collapse p.1 p.2, big.collapse p.1 (ix p.1 p.2))

def anyWorld (src : Vec) : World ℝ := World.put ⟨{}, fun _ => 0, fun _ => false, 0⟩ (.user 0) src

include E

theorem gather_good {nS nB : ℕ} (dst src : Arr) (hd : dst.length = nS) (hs : src.length = nB) :
    Good (Fits big small ix nS nB) ((blocks big small ix).foldlM (fun a p => copy a src p.1 p.2) dst)
      fun a' => a'.length = nS ∧ ∀ e < small.size, abs a' e = pull m big small ix (abs src) e := by
  unfold blocks
  rw [List.foldlM_map]
  refine (fold_good (n := nS) _
    (fun p : Fin 4 × ℕ => copyBlock (.user 1) (small.collapse p.1 p.2) (.user 0) (big.collapse p.1 (ix p.1 p.2)))
    (fun p => InRange (small.collapse p.1 p.2) nS ∧ InRange (big.collapse p.1 (ix p.1 p.2)) nB)
    (anyWorld (abs src)) (.user 1) (blockList small.nsub) (fun p hp a ha => ?_) dst hd).mono Iff.rfl ?_
  · have hl : (big.collapse p.1 (ix p.1 p.2)).length = (small.collapse p.1 p.2).length := by
      rw [E.small.len _ _ (mem_blockList.1 hp), E.big.len _ _ (E.range _ _ (mem_blockList.1 hp))]
    have := copy_good a src _ _ hl
    rw [ha, hs] at this
    refine this.mono Iff.rfl fun a' h => ⟨h.1, ?_⟩
    unfold copyBlock
    rw [M.bind_ok (getVec_run _ _), M.bind_ok (getVec_run _ _), put_same, put_ne (r' := .user 0) _ (by simp),
      M.bind_ok (a := abs a') (s' := (anyWorld (abs src)).put (.user 1) (abs a)) (by
        rw [M.lift_run, h.2]; simp [anyWorld, npAssign, hl])]
    simp
  · rintro a' ⟨h1, h2⟩
    refine ⟨h1, fun e he => ?_⟩
    obtain ⟨v, e1, e2⟩ := loop_gather E ((anyWorld (abs src)).put (.user 1) (abs dst)) (dst := .user 1) (src := .user 0)
      (by simp) (fun p : Fin 4 × ℕ => copyBlock (.user 1) (small.collapse p.1 p.2) (.user 0)
        (big.collapse p.1 (ix p.1 p.2))) fun _ _ _ => rfl
    rw [e1] at h2
    have h3 := congrArg (fun p : Py Unit × World ℝ => p.2.heap (.user 1)) h2
    simp only [put_same] at h3
    rw [← h3, e2 e he, put_ne _ (by simp), anyWorld, put_same]

theorem scatter_good {nS nB : ℕ} (dst src : Arr) (hd : dst.length = nB) (hs : src.length = nS) :
    Good (Fits big small ix nS nB) ((blocks big small ix).foldlM (fun a p => addTo a src p.2 p.1) dst)
      fun a' => a'.length = nB ∧ abs a' = abs dst + push m big small ix (abs src) := by
  unfold blocks
  rw [List.foldlM_map]
  refine (fold_good (n := nB) _
    (fun p : Fin 4 × ℕ => addBlock (.user 1) (big.collapse p.1 (ix p.1 p.2)) (.user 0) (small.collapse p.1 p.2))
    (fun p => InRange (small.collapse p.1 p.2) nS ∧ InRange (big.collapse p.1 (ix p.1 p.2)) nB)
    (anyWorld (abs src)) (.user 1) (blockList small.nsub) (fun p hp a ha => ?_) dst hd).mono Iff.rfl ?_
  · have hl : (small.collapse p.1 p.2).length = (big.collapse p.1 (ix p.1 p.2)).length := by
      rw [E.small.len _ _ (mem_blockList.1 hp), E.big.len _ _ (E.range _ _ (mem_blockList.1 hp))]
    have := addTo_good a src _ _ hl
    rw [ha, hs] at this
    refine this.mono and_comm fun a' h => ⟨h.1, ?_⟩
    unfold addBlock
    rw [M.bind_ok (getVec_run _ _), M.bind_ok (getVec_run _ _), put_same, put_ne (r' := .user 0) _ (by simp),
      M.bind_ok (a := abs a') (s' := (anyWorld (abs src)).put (.user 1) (abs a)) (by
        rw [M.lift_run, h.2]; simp [anyWorld, npAddAssign, npAssign, hl])]
    simp
  · rintro a' ⟨h1, h2⟩
    refine ⟨h1, ?_⟩
    have e1 := loop_scatterAdd E ((anyWorld (abs src)).put (.user 1) (abs dst)) (dst := .user 1) (src := .user 0)
      (by simp) (fun p : Fin 4 × ℕ => addBlock (.user 1) (big.collapse p.1 (ix p.1 p.2)) (.user 0)
        (small.collapse p.1 p.2)) fun _ _ _ => rfl
    rw [e1] at h2
    have h3 := congrArg (fun p : Py Unit × World ℝ => p.2.heap (.user 1)) h2
    simp only [put_same] at h3
    rw [← h3, put_ne _ (by simp), anyWorld, put_same]

omit E in
/-- The blocks fit if and only if the arrays hold every dof of the blocks. -/
theorem fits_iff (E : Emb m big small ix) (nS nB : ℕ) : Fits big small ix nS nB ↔
    small.size ≤ nS ∧ ∀ c l s, l < small.nsub c → s < m c → big.dof c (ix c l) s < nB := by
  constructor
  · intro h
    refine ⟨?_, fun c l s hl hs => ?_⟩
    · by_contra hn
      push Not at hn
      obtain ⟨c, i, s, hi, hs, e⟩ := E.small.surj nS hn
      have := (h (c, i) (mem_blockList.2 hi)).1 nS ((E.small.mem_iff hi).2 ⟨s, hs, e⟩)
      exact lt_irrefl _ this
    · exact (h (c, l) (mem_blockList.2 hl)).2 _ ((E.big.mem_iff (E.range _ _ hl)).2 ⟨s, hs, rfl⟩)
  · rintro ⟨h1, h2⟩ p hp
    have hp := mem_blockList.1 hp
    refine ⟨fun i hi => ?_, fun i hi => ?_⟩
    · obtain ⟨s, hs, rfl⟩ := (E.small.mem_iff hp).1 hi
      exact (E.small.lt _ _ _ hp hs).trans_le h1
    · obtain ⟨s, hs, rfl⟩ := (E.big.mem_iff (E.range _ _ hp)).1 hi
      exact h2 _ _ _ hp hs
end loops

/-! ### one rank -/

/-- DOLFINx' and PETSc's contracts on a rank: the local dof maps number the owned and ghost dofs, and products are
arrays with the owned entries. -/
structure Rank.Ok (R : Rank) (m : Fin 4 → ℕ) : Prop where
  full : R.full.Ok m
  fullN : R.full.nsub = fullSizes R.q R.qstar R.N
  slab : R.slab.Ok m
  slabN : R.slab.nsub = slabSizes R.q R.qstar
  coup : R.coup.Ok m
  coupN : R.coup.nsub = couplingSizes
  fullLe : R.fullOwned ≤ R.full.size
  slabLe : R.slabOwned ≤ R.slab.size
  coupLe : R.coupOwned ≤ R.coup.size
  slabMult : ∀ a, (R.slabMult a).length = R.slabOwned
  coupMult : ∀ a, (R.coupMult a).length = R.coupOwned

def Rank.slabIx (R : Rank) (n : ℕ) (c : Fin 4) (l : ℕ) : ℕ := n * (R.order c + 1) + l
def Rank.coupIx (R : Rank) (n : ℕ) (_ : Fin 4) (i : ℕ) : ℕ := n * (R.q + 1) - 1 + i

variable {R : Rank} {m : Fin 4 → ℕ}

theorem fullN_eq (R : Rank) (c : Fin 4) : fullSizes R.q R.qstar R.N c = (R.order c + 1) * R.N := by
  fin_cases c <;> rfl
theorem slabN_eq (R : Rank) (c : Fin 4) : slabSizes R.q R.qstar c = R.order c + 1 := by
  fin_cases c <;> rfl

theorem Rank.Ok.embSlab (h : R.Ok m) {n : ℕ} (hn : n < R.N) : Emb m R.full R.slab (R.slabIx n) where
  big := h.full
  small := h.slab
  range c l hl := by
    rw [h.slabN, slabN_eq] at hl
    rw [h.fullN, fullN_eq, Rank.slabIx]
    calc n * (R.order c + 1) + l < (n + 1) * (R.order c + 1) := by linarith
      _ ≤ R.N * (R.order c + 1) := Nat.mul_le_mul_right _ hn
      _ = _ := mul_comm _ _
  inj c l l' _ _ e := by simpa [Rank.slabIx] using e

theorem Rank.Ok.embCoup (h : R.Ok m) {n : ℕ} (h0 : 0 < n) (hn : n < R.N) :
    Emb m R.full R.coup (R.coupIx n) where
  big := h.full
  small := h.coup
  range c l hl := by
    rw [h.coupN] at hl
    obtain ⟨hc, hl⟩ := couplingSizes_lt hl
    rw [h.fullN, fullN_eq, Rank.coupIx]
    have ho : R.order c = R.q := by simp [Rank.order, hc]
    rw [ho]
    have h1 : (n + 1) * (R.q + 1) ≤ R.N * (R.q + 1) := Nat.mul_le_mul_right _ hn
    have h2 : 1 ≤ n * (R.q + 1) := Nat.mul_pos h0 (Nat.succ_pos _)
    have h3 : (n + 1) * (R.q + 1) = n * (R.q + 1) + R.q + 1 := by ring
    have h4 : (R.q + 1) * R.N = R.N * (R.q + 1) := mul_comm _ _
    omega
  inj c l l' _ _ e := by simpa [Rank.coupIx] using e

theorem Rank.Ok.slabBlocks (h : R.Ok m) (n : ℕ) : R.slabBlocks n = blocks R.full R.slab (R.slabIx n) := by
  unfold Rank.slabBlocks blocks blockList
  rw [List.map_flatMap]
  congr 1
  funext j
  rw [List.map_map, h.slabN, slabN_eq]
  rfl

theorem Rank.Ok.coupBlocks (h : R.Ok m) (n : ℕ) : R.coupBlocks n = blocks R.full R.coup (R.coupIx n) := by
  unfold Rank.coupBlocks blocks blockList
  rw [h.coupN]
  rfl

/-- The accesses of slab `n` are within the owned parts. -/
def Rank.Fits (R : Rank) (n : ℕ) : Prop :=
  Par.Fits R.full R.slab (R.slabIx n) R.slabOwned R.fullOwned ∧
    (n ≠ 0 → Par.Fits R.full R.coup (R.coupIx n) R.coupOwned R.fullOwned)

/-- Lengths of the vectors of one call. -/
def MfSt.Len (R : Rank) (s : MfSt) : Prop :=
  s.slab1.length = R.slabOwned ∧ s.coup1.length = R.coupOwned ∧ s.out.length = R.fullOwned

/-- The part of slab `n` in the product, computed with total functions. -/
noncomputable def Rank.part (R : Rank) (m : Fin 4 → ℕ) (n : ℕ) (slab1 coup1 : Arr) : Vec :=
  push m R.full R.slab (R.slabIx n) (abs (R.slabMult slab1)) +
    if n = 0 then 0 else push m R.full R.coup (R.coupIx n) (abs (R.coupMult coup1))

theorem body_good (h : R.Ok m) {n : ℕ} (hn : n < R.N) (x : Arr) (hx : x.length = R.fullOwned) (s : MfSt)
    (hs : s.Len R) : Good (R.Fits n) (R.mfBody x s n) fun s' => s'.Len R ∧
      ∃ a b : Arr, (∀ e < R.slab.size, abs a e = pull m R.full R.slab (R.slabIx n) (abs x) e) ∧
        (n ≠ 0 → ∀ e < R.coup.size, abs b e = pull m R.full R.coup (R.coupIx n) (abs x) e) ∧
        abs s'.out = abs s.out + R.part m n a b := by
  obtain ⟨h1, h2, h3⟩ := hs
  have E := h.embSlab hn
  unfold Rank.mfBody
  rw [h.slabBlocks]
  refine ((gather_good E s.slab1 x h1 hx).bind (P' := R.Fits n) fun a ha => ?_).mono
    ⟨fun h => h.2, fun h => ⟨h.1, h⟩⟩ fun _ h => h
  refine (scatter_good E s.out (R.slabMult a) h3 (h.slabMult a)).bind
    (P' := n ≠ 0 → Par.Fits R.full R.coup (R.coupIx n) R.coupOwned R.fullOwned) fun o ho => ?_
  by_cases h0 : n = 0
  · rw [if_pos h0]
    refine (Good.ok ?_).mono (by simp [h0]) fun _ h => h
    exact ⟨⟨ha.1, h2, ho.1⟩, a, s.coup1, ha.2, fun h => absurd h0 h, by simp [ho.2, Rank.part, h0]⟩
  · rw [if_neg h0, h.coupBlocks]
    have E' := h.embCoup (Nat.pos_of_ne_zero h0) hn
    refine ((gather_good E' s.coup1 x h2 hx).bind (P' := Par.Fits R.full R.coup (R.coupIx n) R.coupOwned R.fullOwned ∧ True)
      fun b hb => ?_).mono ⟨fun h _ => h.1, fun h => ⟨h h0, h h0, trivial⟩⟩ fun _ h => h
    refine (scatter_good E' o (R.coupMult b) ho.1 (h.coupMult b)).bind fun o' ho' => ?_
    refine Good.ok ⟨⟨ha.1, hb.1, ho'.1⟩, a, b, ha.2, fun _ => hb.2, ?_⟩
    rw [ho'.2, ho.2, Rank.part, if_neg h0, add_assoc]

theorem loop_good (h : R.Ok m) (x : Arr) (hx : x.length = R.fullOwned) (s : MfSt) (hs : s.Len R) (k : ℕ) (hk : k ≤ R.N) :
    Good (∀ n < k, R.Fits n) ((List.range k).foldlM (R.mfBody x) s) fun s' => s'.Len R ∧
      ∃ a b : ℕ → Arr, (∀ n < k, ∀ e < R.slab.size, abs (a n) e = pull m R.full R.slab (R.slabIx n) (abs x) e) ∧
        (∀ n < k, n ≠ 0 → ∀ e < R.coup.size, abs (b n) e = pull m R.full R.coup (R.coupIx n) (abs x) e) ∧
        abs s'.out = abs s.out + ∑ n ∈ range k, R.part m n (a n) (b n) := by
  induction k with
  | zero => exact (Good.ok ⟨hs, fun _ => [], fun _ => [], by simp, by simp, by simp⟩).mono (by simp) fun _ h => h
  | succ k ih =>
    rw [List.range_succ, List.foldlM_append]
    refine ((ih (by omega)).bind (P' := R.Fits k) fun s' hs' => ?_).mono
      ⟨fun h n hn => by
        rcases Nat.lt_succ_iff_lt_or_eq.1 hn with hn | rfl
        · exact h.1 n hn
        · exact h.2, fun h => ⟨fun n hn => h n (by omega), h k (by omega)⟩⟩ fun _ h => h
    obtain ⟨hl, a, b, ha, hb, ho⟩ := hs'
    rw [List.foldlM_cons]
    refine ((body_good h (by omega) x hx s' hl).bind (P' := True) fun s'' hs'' => ?_).mono (by simp) fun _ h => h
    obtain ⟨hl', a', b', ha', hb', ho'⟩ := hs''
    refine Good.ok ⟨hl', Function.update a k a', Function.update b k b', fun n hn => ?_, fun n hn => ?_, ?_⟩
    · by_cases hnk : n = k
      · subst hnk; simpa using ha'
      · rw [Function.update_of_ne hnk]; exact ha n (by omega)
    · by_cases hnk : n = k
      · subst hnk; simpa using hb'
      · rw [Function.update_of_ne hnk]; exact hb n (by omega)
    · rw [ho', ho, sum_range_succ, add_assoc]
      congr 2
      · refine sum_congr rfl fun n hn => ?_
        have := (mem_range.1 hn).ne
        rw [Function.update_of_ne this, Function.update_of_ne this]
      · simp

/-- All accesses are in range if and only if the rank has no ghost dofs (in the spaces used). -/
theorem fits_all (h : R.Ok m) (hN : 1 ≤ R.N) : (∀ n < R.N, R.Fits n) ↔
    R.full.size = R.fullOwned ∧ R.slab.size = R.slabOwned ∧ (2 ≤ R.N → R.coup.size = R.coupOwned) := by
  constructor
  · intro hf
    refine ⟨le_antisymm ?_ h.fullLe, le_antisymm ((fits_iff (h.embSlab hN) _ _).1 (hf 0 hN).1).1 h.slabLe,
      fun h2 => le_antisymm ((fits_iff (h.embCoup one_pos h2) _ _).1 ((hf 1 h2).2 one_ne_zero)).1 h.coupLe⟩
    by_contra hlt
    push Not at hlt
    obtain ⟨c, i, s, hi, hs, e⟩ := h.full.surj _ hlt
    rw [h.fullN, fullN_eq] at hi
    have hi' : i / (R.order c + 1) < R.N := Nat.div_lt_of_lt_mul hi
    have := ((fits_iff (h.embSlab hi') _ _).1 (hf _ hi').1).2 c (i % (R.order c + 1)) s
      (by rw [h.slabN, slabN_eq]; exact Nat.mod_lt _ (Nat.succ_pos _)) hs
    rw [Rank.slabIx, mul_comm, Nat.div_add_mod, e] at this
    exact lt_irrefl _ this
  · rintro ⟨h1, h2, h3⟩ n hn
    refine ⟨(fits_iff (h.embSlab hn) _ _).2 ⟨h2.le, fun c l s hl hs => ?_⟩, fun h0 =>
      (fits_iff (h.embCoup (Nat.pos_of_ne_zero h0) hn) _ _).2 ⟨(h3 (by omega)).le, fun c l s hl hs => ?_⟩⟩
    · rw [← h1]; exact h.full.lt _ _ _ ((h.embSlab hn).range _ _ hl) hs
    · rw [← h1]; exact h.full.lt _ _ _ ((h.embCoup (Nat.pos_of_ne_zero h0) hn).range _ _ hl) hs

end Dxss.Par
