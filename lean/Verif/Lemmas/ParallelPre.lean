import Verif.Model.ParallelPre
import Verif.Lemmas.Parallel
import Verif.Lemmas.Precond

namespace Dxss.Par
open Finset
variable {V : Type} [AddCommGroup V] [Module ℝ V]

section loops
variable {m : Fin 4 → ℕ} {big small : FSpace} {ix : Fin 4 → ℕ → ℕ} (E : Emb m big small ix)
include E

theorem gatherAdd_good {nS nB : ℕ} (dst src : Arr) (hd : dst.length = nS) (hs : src.length = nB) :
    Good (Fits big small ix nS nB) ((blocks big small ix).foldlM (fun a p => addTo a src p.1 p.2) dst)
      fun a' => a'.length = nS ∧ abs a' = abs dst + pull m big small ix (abs src) := by
  unfold blocks
  rw [List.foldlM_map]
  refine (fold_good (n := nS) _
    (fun p : Fin 4 × ℕ => addBlock (.user 1) (small.collapse p.1 p.2) (.user 0) (big.collapse p.1 (ix p.1 p.2)))
    (fun p => InRange (small.collapse p.1 p.2) nS ∧ InRange (big.collapse p.1 (ix p.1 p.2)) nB)
    (anyWorld (abs src)) (.user 1) (blockList small.nsub) (fun p hp a ha => ?_) dst hd).mono Iff.rfl ?_
  · have hl : (big.collapse p.1 (ix p.1 p.2)).length = (small.collapse p.1 p.2).length := by
      rw [E.small.len _ _ (mem_blockList.1 hp), E.big.len _ _ (E.range _ _ (mem_blockList.1 hp))]
    have := addTo_good a src _ _ hl
    rw [ha, hs] at this
    refine this.mono Iff.rfl fun a' h => ⟨h.1, ?_⟩
    unfold addBlock
    rw [M.bind_ok (getVec_run _ _), M.bind_ok (getVec_run _ _), put_same, put_ne (r' := .user 0) _ (by simp),
      M.bind_ok (a := abs a') (s' := (anyWorld (abs src)).put (.user 1) (abs a)) (by
        rw [M.lift_run, h.2]; simp [anyWorld, npAddAssign, npAssign, hl])]
    simp
  · rintro a' ⟨h1, h2⟩
    refine ⟨h1, ?_⟩
    have e1 := loop_gatherAdd E ((anyWorld (abs src)).put (.user 1) (abs dst)) (dst := .user 1) (src := .user 0)
      (by simp) (fun p : Fin 4 × ℕ => addBlock (.user 1) (small.collapse p.1 p.2) (.user 0)
        (big.collapse p.1 (ix p.1 p.2))) fun _ _ _ => rfl
    rw [e1] at h2
    have h3 := congrArg (fun p : Py Unit × World ℝ => p.2.heap (.user 1)) h2
    simp only [put_same] at h3
    rw [← h3, put_ne _ (by simp), anyWorld, put_same]

theorem write_good {nS nB : ℕ} (dst src : Arr) (hd : dst.length = nB) (hs : src.length = nS) :
    Good (Fits big small ix nS nB) ((blocks big small ix).foldlM (fun a p => copy a src p.2 p.1) dst)
      fun a' => a'.length = nB ∧
        (∀ c l s, l < small.nsub c → s < m c → abs a' (big.dof c (ix c l) s) = abs src (small.dof c l s)) ∧
        ∀ d, (∀ c l s, l < small.nsub c → s < m c → big.dof c (ix c l) s ≠ d) → abs a' d = abs dst d := by
  unfold blocks
  rw [List.foldlM_map]
  refine (fold_good (n := nB) _
    (fun p : Fin 4 × ℕ => copyBlock (.user 1) (big.collapse p.1 (ix p.1 p.2)) (.user 0) (small.collapse p.1 p.2))
    (fun p => InRange (small.collapse p.1 p.2) nS ∧ InRange (big.collapse p.1 (ix p.1 p.2)) nB)
    (anyWorld (abs src)) (.user 1) (blockList small.nsub) (fun p hp a ha => ?_) dst hd).mono Iff.rfl ?_
  · have hl : (small.collapse p.1 p.2).length = (big.collapse p.1 (ix p.1 p.2)).length := by
      rw [E.small.len _ _ (mem_blockList.1 hp), E.big.len _ _ (E.range _ _ (mem_blockList.1 hp))]
    have := copy_good a src _ _ hl
    rw [ha, hs] at this
    refine this.mono and_comm fun a' h => ⟨h.1, ?_⟩
    unfold copyBlock
    rw [M.bind_ok (getVec_run _ _), M.bind_ok (getVec_run _ _), put_same, put_ne (r' := .user 0) _ (by simp),
      M.bind_ok (a := abs a') (s' := (anyWorld (abs src)).put (.user 1) (abs a)) (by
        rw [M.lift_run, h.2]; simp [anyWorld, npAssign, hl])]
    simp
  · rintro a' ⟨h1, h2⟩
    refine ⟨h1, ?_⟩
    obtain ⟨v, e1, e2, e3⟩ := loop_scatter E ((anyWorld (abs src)).put (.user 1) (abs dst)) (dst := .user 1)
      (src := .user 0) (by simp) (fun p : Fin 4 × ℕ => copyBlock (.user 1) (big.collapse p.1 (ix p.1 p.2)) (.user 0)
        (small.collapse p.1 p.2)) fun _ _ _ => rfl
    rw [e1] at h2
    have h3 := congrArg (fun p : Py Unit × World ℝ => p.2.heap (.user 1)) h2
    simp only [put_same] at h3
    subst h3
    refine ⟨fun c l s hl hs => ?_, fun d hd => ?_⟩
    · rw [e2 c l s hl hs, put_ne _ (by simp), anyWorld, put_same]
    · rw [e3 d hd, put_same]
end loops

theorem abs_replicate (n : ℕ) : abs (List.replicate n 0) = 0 := by
  funext d
  simp only [abs, List.getD_eq_getElem?_getD, List.getElem?_replicate]
  split <;> rfl

/-- `PreRank` version of `Rank.Ok`: also the interface space, and `uh_pre.x.array` has an entry for every dof of the slab. -/
structure PreRank.Ok (R : PreRank) (m : Fin 4 → ℕ) : Prop extends R.toRank.Ok m where
  bnd : R.bnd.Ok m
  bndN : R.bnd.nsub = bndSizes
  bndLe : R.bndOwned ≤ R.bnd.size
  bndMult : ∀ a, (R.bndMult a).length = R.bndOwned
  solveFirst : ∀ a, (R.solveFirst a).length = R.slab.size
  solveSlab : ∀ a, (R.solveSlab a).length = R.slab.size

variable {R : PreRank} {m : Fin 4 → ℕ}

def PreRank.topIx (R : PreRank) (_ : Fin 4) (_ : ℕ) : ℕ := R.q

theorem PreRank.Ok.embTop (h : R.Ok m) : Emb m R.slab R.bnd R.topIx where
  big := h.slab
  small := h.bnd
  range c l hl := by
    rw [h.bndN] at hl
    rw [h.slabN, slabN_eq]
    rcases (bndSizes_lt hl).1 with rfl | rfl <;> simp [PreRank.topIx, Rank.order]
  inj c l l' hl hl' _ := by
    rw [h.bndN] at hl hl'; rw [(bndSizes_lt hl).2, (bndSizes_lt hl').2]

theorem PreRank.Ok.embBot (h : R.Ok m) : Emb m R.slab R.bnd botIx where
  big := h.slab
  small := h.bnd
  range c l hl := by rw [h.slabN, slabN_eq]; simp [botIx]
  inj c l l' hl hl' _ := by
    rw [h.bndN] at hl hl'; rw [(bndSizes_lt hl).2, (bndSizes_lt hl').2]

theorem PreRank.Ok.bndBlocks (h : R.Ok m) (ix : Fin 4 → ℕ → ℕ) :
    blocks R.slab R.bnd ix = [(R.bnd.collapse 0 0, R.slab.collapse 0 (ix 0 0)), (R.bnd.collapse 1 0, R.slab.collapse 1 (ix 1 0))] := by
  unfold blocks blockList
  rw [h.bndN]
  rfl

/-- The accesses of slab `n` are within the arrays. -/
def PreRank.Fits (R : PreRank) (n : ℕ) : Prop :=
  Par.Fits R.full R.slab (R.slabIx n) R.slabOwned R.fullOwned ∧
    Par.Fits R.slab R.bnd R.topIx R.bndOwned R.slab.size ∧ Par.Fits R.slab R.bnd botIx R.bndOwned R.slabOwned ∧
    Par.Fits R.full R.slab (R.slabIx n) R.slab.size R.fullOwned

theorem PreRank.Ok.fits_all (h : R.Ok m) (hN : 1 ≤ R.N) : (∀ n < R.N, R.Fits n) ↔
    R.full.size = R.fullOwned ∧ R.slab.size = R.slabOwned ∧ R.bnd.size = R.bndOwned := by
  constructor
  · intro hf
    refine ⟨le_antisymm ?_ h.fullLe, le_antisymm ((fits_iff (h.embSlab hN) _ _).1 (hf 0 hN).1).1 h.slabLe,
      le_antisymm ((fits_iff h.embTop _ _).1 (hf 0 hN).2.1).1 h.bndLe⟩
    by_contra hlt
    push Not at hlt
    obtain ⟨c, i, s, hi, hs, e⟩ := h.full.surj _ hlt
    rw [h.fullN, fullN_eq] at hi
    have hi' : i / (R.order c + 1) < R.N := Nat.div_lt_of_lt_mul hi
    have := ((fits_iff (h.embSlab hi') _ _).1 (hf _ hi').1).2 c (i % (R.order c + 1)) s
      (by rw [h.slabN, slabN_eq]; exact Nat.mod_lt _ (Nat.succ_pos _)) hs
    rw [Rank.slabIx, mul_comm, Nat.div_add_mod, e] at this
    exact lt_irrefl _ this
  · rintro ⟨h1, h2, h3⟩ n hn
    have hfull : ∀ c l s, l < R.slab.nsub c → s < m c → R.full.dof c (R.slabIx n c l) s < R.fullOwned :=
      fun c l s hl hs => by rw [← h1]; exact h.full.lt _ _ _ ((h.embSlab hn).range _ _ hl) hs
    refine ⟨(fits_iff (h.embSlab hn) _ _).2 ⟨h2.le, hfull⟩, (fits_iff h.embTop _ _).2 ⟨h3.le, fun c l s hl hs => ?_⟩,
      (fits_iff h.embBot _ _).2 ⟨h3.le, fun c l s hl hs => ?_⟩, (fits_iff (h.embSlab hn) _ _).2 ⟨le_rfl, hfull⟩⟩
    · exact h.slab.lt _ _ _ (h.embTop.range _ _ hl) hs
    · rw [← h2]; exact h.slab.lt _ _ _ (h.embBot.range _ _ hl) hs

theorem PreRank.Ok.solve (h : R.Ok m) (n : ℕ) (a : Arr) : (R.solve n a).length = R.slab.size := by
  unfold PreRank.solve; split
  exacts [h.solveFirst a, h.solveSlab a]

theorem pre_body_good (h : R.Ok m) {n : ℕ} (hn : n < R.N) (b : Arr) (hb : b.length = R.fullOwned) (s : PreSt)
    (hr : s.rhs.length = R.slabOwned) (hx : s.out.length = R.fullOwned) :
    Good (R.Fits n) (R.preBody b s n) fun s' => s'.rhs.length = R.slabOwned ∧ s'.out.length = R.fullOwned ∧
      ∃ rhs bin : Arr, abs rhs = abs s.rhs + pull m R.full R.slab (R.slabIx n) (abs b) ∧
        abs bin = pull m R.slab R.bnd R.topIx (abs (R.solve n rhs)) ∧
        abs s'.rhs = push m R.slab R.bnd botIx (abs (R.bndMult bin)) ∧
        (∀ c l t, l < R.slab.nsub c → t < m c →
          abs s'.out (R.full.dof c (R.slabIx n c l) t) = abs (R.solve n rhs) (R.slab.dof c l t)) ∧
        ∀ d, (∀ c l t, l < R.slab.nsub c → t < m c → R.full.dof c (R.slabIx n c l) t ≠ d) →
          abs s'.out d = abs s.out d := by
  have E := h.embSlab hn
  unfold PreRank.Fits PreRank.preBody
  rw [h.slabBlocks]
  refine Good.bind (gatherAdd_good E s.rhs b hr hb) fun rhs hrhs => ?_
  dsimp only
  have e1 : ∀ {β : Type} (k : Arr → Py β), (do
      let bin ← addTo (List.replicate R.bndOwned 0) (R.solve n rhs) (R.bnd.collapse 0 0) (R.slab.collapse 0 R.q)
      let bin ← addTo bin (R.solve n rhs) (R.bnd.collapse 1 0) (R.slab.collapse 1 R.q)
      k bin) = ((blocks R.slab R.bnd R.topIx).foldlM (fun a p => addTo a (R.solve n rhs) p.1 p.2)
        (List.replicate R.bndOwned 0) >>= k) := fun k => by
    rw [h.bndBlocks]
    simp only [List.foldlM_cons, List.foldlM_nil, bind_assoc, pure_bind, PreRank.topIx]
  rw [e1]
  refine (gatherAdd_good h.embTop (List.replicate R.bndOwned 0) (R.solve n rhs) (by simp) (h.solve _ _)).bind
    fun bin hbin => ?_
  have e2 : ∀ {β : Type} (k : Arr → Py β), (do
      let rhs' ← addTo (List.replicate rhs.length 0) (R.bndMult bin) (R.slab.collapse 0 0) (R.bnd.collapse 0 0)
      let rhs' ← addTo rhs' (R.bndMult bin) (R.slab.collapse 1 0) (R.bnd.collapse 1 0)
      k rhs') = ((blocks R.slab R.bnd botIx).foldlM (fun a p => addTo a (R.bndMult bin) p.2 p.1)
        (List.replicate rhs.length 0) >>= k) := fun k => by
    rw [h.bndBlocks]
    simp only [List.foldlM_cons, List.foldlM_nil, bind_assoc, pure_bind, botIx]
  rw [e2]
  refine (scatter_good h.embBot (List.replicate rhs.length 0) (R.bndMult bin) (by simp [hrhs.1]) (h.bndMult _)).bind
    fun rhs' hrhs' => ?_
  refine ((write_good E s.out (R.solve n rhs) hx (h.solve _ _)).bind (P' := True) fun out hout => ?_).mono
    (and_iff_left trivial) fun _ h => h
  refine Good.ok ⟨hrhs'.1, hout.1, rhs, bin, hrhs.2, ?_, ?_, hout.2.1, hout.2.2⟩
  · rw [hbin.2, abs_replicate, zero_add]
  · rw [hrhs'.2, abs_replicate, zero_add]

end Dxss.Par
