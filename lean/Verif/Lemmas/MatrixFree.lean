import Verif.Lemmas.Blocks
import Verif.Lemmas.Variational

/-! # The matrix-free product -/

namespace Dxss
open Finset
set_option linter.unusedSectionVars false
variable {V : Type} [AddCommGroup V] [Module ℝ V]

/-- What a successfully constructed object with DOLFINx function spaces satisfies. -/
structure Cfg.Ok (C : Cfg V) : Prop where
  disc : C.D.Ok
  full : C.full.Ok C.fe.m
  fullN : C.full.nsub = fullSizes C.D.q C.D.qstar C.D.N
  slab : C.slab.Ok C.fe.m
  slabN : C.slab.nsub = slabSizes C.D.q C.D.qstar
  coup : C.coup.Ok C.fe.m
  coupN : C.coup.nsub = couplingSizes
  bnd : C.bnd.Ok C.fe.m
  bndN : C.bnd.nsub = bndSizes

theorem FSpace.Ok.nodup {L : FSpace} {m : Fin 4 → ℕ} (h : L.Ok m) {c : Fin 4} {i : ℕ}
    (hi : i < L.nsub c) : (L.collapse c i).Nodup := by
  rw [List.nodup_iff_injective_get]
  intro a b hab
  have ha : a.1 < m c := h.len c i hi ▸ a.2
  have hb : b.1 < m c := h.len c i hi ▸ b.2
  refine Fin.ext (h.inj c i a c i b hi ha hi hb ?_).2.2
  simp only [FSpace.dof]
  rw [List.getD_eq_getElem _ _ a.2, List.getD_eq_getElem _ _ b.2]
  exact hab

theorem FSpace.Ok.disjoint {L : FSpace} {m : Fin 4 → ℕ} (h : L.Ok m) {c c' : Fin 4} {i i' : ℕ}
    (hi : i < L.nsub c) (hi' : i' < L.nsub c') (hne : ¬ (c = c' ∧ i = i')) :
    ∀ d ∈ L.collapse c i, d ∉ L.collapse c' i' := by
  intro d hd hd'
  obtain ⟨s, hs, rfl⟩ := List.getElem_of_mem hd
  obtain ⟨s', hs', e⟩ := List.getElem_of_mem hd'
  rw [← List.getD_eq_getElem _ 0 hs, ← List.getD_eq_getElem _ 0 hs'] at e
  have := h.inj c' i' s' c i s hi' (h.len c' i' hi' ▸ hs') hi (h.len c i hi ▸ hs) e
  exact hne ⟨this.1.symm, this.2.1.symm⟩

theorem FSpace.Ok.mem_iff {L : FSpace} {m : Fin 4 → ℕ} (h : L.Ok m) {c : Fin 4} {i : ℕ}
    (hi : i < L.nsub c) {d : ℕ} : d ∈ L.collapse c i ↔ ∃ s < m c, L.dof c i s = d := by
  constructor
  · intro hd
    obtain ⟨s, hs, rfl⟩ := List.getElem_of_mem hd
    exact ⟨s, h.len c i hi ▸ hs, List.getD_eq_getElem _ _ hs⟩
  · rintro ⟨s, hs, rfl⟩
    exact getD_mem' (by rw [h.len c i hi]; exact hs)

/-- All (component, index) pairs, in loop order. -/
def blockList (n : Fin 4 → ℕ) : List (Fin 4 × ℕ) :=
  ([0, 1, 2, 3] : List (Fin 4)).flatMap fun j => (List.range (n j)).map fun l => (j, l)

theorem mem_blockList {n : Fin 4 → ℕ} {p : Fin 4 × ℕ} : p ∈ blockList n ↔ p.2 < n p.1 := by
  rcases p with ⟨c, l⟩
  have : ∀ c : Fin 4, c ∈ ([0, 1, 2, 3] : List (Fin 4)) := by decide
  simp only [blockList, List.mem_flatMap, List.mem_map, List.mem_range, Prod.mk.injEq]
  constructor
  · rintro ⟨j, -, l', h, rfl, rfl⟩; exact h
  · intro h; exact ⟨c, this c, l, h, rfl, rfl⟩

theorem sum_blockList (n : Fin 4 → ℕ) (f : Fin 4 → ℕ → ℝ) :
    ((blockList n).map fun p => f p.1 p.2).sum = ∑ c, ∑ l ∈ range (n c), f c l := by
  have key : ∀ (j : Fin 4), (List.map (fun p : Fin 4 × ℕ => f p.1 p.2)
      ((List.range (n j)).map fun l => (j, l))).sum = ∑ l ∈ range (n j), f j l := by
    intro j
    rw [List.map_map, ← sum_map_range]; rfl
  simp only [blockList, List.flatMap_cons, List.flatMap_nil, List.map_append, List.sum_append,
    List.append_nil, key, Fin.sum_univ_four]
  ring

section loops
variable {m : Fin 4 → ℕ} {big small : FSpace} {ix : Fin 4 → ℕ → ℕ} (E : Emb m big small ix)
  (w : World V) {dst src : Ref} (hne : src ≠ dst) (body : Fin 4 × ℕ → WM V Unit)
include E hne

/-- Gather by assignment. -/
theorem loop_gather
    (hbody : ∀ p ∈ blockList small.nsub, ∀ v, body p (w.put dst v)
      = copyBlock dst (small.collapse p.1 p.2) src (big.collapse p.1 (ix p.1 p.2)) (w.put dst v)) :
    ∃ v, M.forList (blockList small.nsub) body w = (.ok (), w.put dst v) ∧
      ∀ e < small.size, v e = pull m big small ix (w.heap src) e := by
  obtain ⟨v, h1, h2, -⟩ := copyLoop w dst src hne (blockList small.nsub) _ _ body hbody
    (fun p hp => E.small.nodup (mem_blockList.1 hp))
    (fun p hp => by
      rw [E.small.len _ _ (mem_blockList.1 hp), E.big.len _ _ (E.range _ _ (mem_blockList.1 hp))])
    (fun p hp p' hp' hpp => E.small.disjoint (mem_blockList.1 hp) (mem_blockList.1 hp')
      fun h => hpp (Prod.ext h.1 h.2))
  refine ⟨v, h1, fun e he => ?_⟩
  obtain ⟨c, l, s, hl, hs, rfl⟩ := E.small.surj e he
  rw [pull_dof E _ hl hs]
  exact h2 (c, l) (mem_blockList.2 hl) s (by rw [E.small.len c l hl]; exact hs)

/-- Gather by addition. -/
theorem loop_gatherAdd
    (hbody : ∀ p ∈ blockList small.nsub, ∀ v, body p (w.put dst v)
      = addBlock dst (small.collapse p.1 p.2) src (big.collapse p.1 (ix p.1 p.2)) (w.put dst v)) :
    M.forList (blockList small.nsub) body w
      = (.ok (), w.put dst (w.heap dst + pull m big small ix (w.heap src))) := by
  rw [addLoop w dst src hne (blockList small.nsub) _ _ body hbody
    (fun p hp => E.small.nodup (mem_blockList.1 hp))
    (fun p hp => by
      rw [E.small.len _ _ (mem_blockList.1 hp), E.big.len _ _ (E.range _ _ (mem_blockList.1 hp))])]
  congr 2
  funext d
  rw [Pi.add_apply]
  congr 1
  rw [sum_blockList small.nsub fun c l => ∑ s ∈ range (small.collapse c l).length,
    if (small.collapse c l).getD s 0 = d then w.heap src ((big.collapse c (ix c l)).getD s 0) else (0 : ℝ)]
  simp only [pull, bsum]
  refine sum_congr rfl fun c _ => sum_congr rfl fun l hl => ?_
  rw [E.small.len c l (mem_range.1 hl)]
  rfl

/-- Scatter by addition. -/
theorem loop_scatterAdd
    (hbody : ∀ p ∈ blockList small.nsub, ∀ v, body p (w.put dst v)
      = addBlock dst (big.collapse p.1 (ix p.1 p.2)) src (small.collapse p.1 p.2) (w.put dst v)) :
    M.forList (blockList small.nsub) body w
      = (.ok (), w.put dst (w.heap dst + push m big small ix (w.heap src))) := by
  rw [addLoop w dst src hne (blockList small.nsub) _ _ body hbody
    (fun p hp => E.big.nodup (E.range _ _ (mem_blockList.1 hp)))
    (fun p hp => by
      rw [E.small.len _ _ (mem_blockList.1 hp), E.big.len _ _ (E.range _ _ (mem_blockList.1 hp))])]
  congr 2
  funext d
  rw [Pi.add_apply]
  congr 1
  rw [sum_blockList small.nsub fun c l => ∑ s ∈ range (big.collapse c (ix c l)).length,
    if (big.collapse c (ix c l)).getD s 0 = d then w.heap src ((small.collapse c l).getD s 0) else (0 : ℝ)]
  simp only [push, bsum]
  refine sum_congr rfl fun c _ => sum_congr rfl fun l hl => ?_
  rw [E.big.len c _ (E.range c l (mem_range.1 hl))]
  rfl

/-- Scatter by assignment. -/
theorem loop_scatter
    (hbody : ∀ p ∈ blockList small.nsub, ∀ v, body p (w.put dst v)
      = copyBlock dst (big.collapse p.1 (ix p.1 p.2)) src (small.collapse p.1 p.2) (w.put dst v)) :
    ∃ v, M.forList (blockList small.nsub) body w = (.ok (), w.put dst v) ∧
      (∀ c l s, l < small.nsub c → s < m c →
        v (big.dof c (ix c l) s) = w.heap src (small.dof c l s)) ∧
      ∀ d, (∀ c l s, l < small.nsub c → s < m c → big.dof c (ix c l) s ≠ d) →
        v d = w.heap dst d := by
  obtain ⟨v, h1, h2, h3⟩ := copyLoop w dst src hne (blockList small.nsub) _ _ body hbody
    (fun p hp => E.big.nodup (E.range _ _ (mem_blockList.1 hp)))
    (fun p hp => by
      rw [E.small.len _ _ (mem_blockList.1 hp), E.big.len _ _ (E.range _ _ (mem_blockList.1 hp))])
    (fun p hp p' hp' hpp => E.big.disjoint (E.range _ _ (mem_blockList.1 hp))
      (E.range _ _ (mem_blockList.1 hp')) fun h => hpp (by
        rcases p with ⟨c, l⟩; rcases p' with ⟨c', l'⟩
        obtain ⟨rfl, h2⟩ := h
        exact Prod.ext rfl (E.inj _ _ _ (mem_blockList.1 hp) (mem_blockList.1 hp') h2)))
  refine ⟨v, h1, fun c l s hl hs => ?_, fun d hd => h3 d fun p hp hmem => ?_⟩
  · exact h2 (c, l) (mem_blockList.2 hl) s (by rw [E.big.len c _ (E.range c l hl)]; exact hs)
  · obtain ⟨s, hs, e⟩ := (E.big.mem_iff (E.range _ _ (mem_blockList.1 hp))).1 hmem
    exact hd _ _ s (mem_blockList.1 hp) hs e

end loops

/-! ### the concrete block maps -/

variable {C : Cfg V}

theorem fullSizes_eq (D : Disc V) (c : Fin 4) :
    fullSizes D.q D.qstar D.N c = (D.timeOrder c + 1) * D.N := by
  fin_cases c <;> rfl
theorem slabSizes_eq (D : Disc V) (c : Fin 4) : slabSizes D.q D.qstar c = D.timeOrder c + 1 := by
  fin_cases c <;> rfl

/-- Index in the full space of time index `l` of slab `n`. -/
def slabIx (D : Disc V) (n : ℕ) (c : Fin 4) (l : ℕ) : ℕ := n * (D.timeOrder c + 1) + l
/-- Indices in the full space of the two traces at the bottom of slab `n ≥ 1`. -/
def coupIx (D : Disc V) (n : ℕ) (_ : Fin 4) (i : ℕ) : ℕ := n * (D.q + 1) - 1 + i
/-- Top / bottom trace of a slab. -/
def topIx (D : Disc V) (_ : Fin 4) (_ : ℕ) : ℕ := D.q
def botIx (_ : Fin 4) (_ : ℕ) : ℕ := 0

theorem slabIx_lt {D : Disc V} {n : ℕ} (hn : n < D.N) {c : Fin 4} {l : ℕ}
    (hl : l < D.timeOrder c + 1) : slabIx D n c l < (D.timeOrder c + 1) * D.N := by
  unfold slabIx
  calc n * (D.timeOrder c + 1) + l < n * (D.timeOrder c + 1) + (D.timeOrder c + 1) := by omega
    _ = (n + 1) * (D.timeOrder c + 1) := by ring
    _ ≤ D.N * (D.timeOrder c + 1) := Nat.mul_le_mul_right _ hn
    _ = _ := by ring

theorem emb_slab (h : C.Ok) {n : ℕ} (hn : n < C.D.N) :
    Emb C.fe.m C.full C.slab (slabIx C.D n) where
  big := h.full
  small := h.slab
  range c l hl := by
    rw [h.slabN, slabSizes_eq] at hl
    rw [h.fullN, fullSizes_eq]; exact slabIx_lt hn hl
  inj c l l' _ _ e := by unfold slabIx at e; omega

theorem couplingSizes_lt {c : Fin 4} {i : ℕ} (h : i < couplingSizes c) : (c = 0 ∨ c = 1) ∧ i < 2 := by
  fin_cases c <;> simp_all [couplingSizes]
theorem bndSizes_lt {c : Fin 4} {i : ℕ} (h : i < bndSizes c) : (c = 0 ∨ c = 1) ∧ i = 0 := by
  fin_cases c <;> simp_all [bndSizes]
theorem timeOrder_primal (D : Disc V) {c : Fin 4} (h : c = 0 ∨ c = 1) : D.timeOrder c = D.q := by
  rcases h with rfl | rfl <;> rfl

theorem emb_coup (h : C.Ok) {n : ℕ} (h0 : 0 < n) (hn : n < C.D.N) :
    Emb C.fe.m C.full C.coup (coupIx C.D n) where
  big := h.full
  small := h.coup
  range c l hl := by
    rw [h.coupN] at hl
    obtain ⟨hc, hl⟩ := couplingSizes_lt hl
    rw [h.fullN, fullSizes_eq, timeOrder_primal _ hc]
    have h1 : 1 ≤ n * (C.D.q + 1) := Nat.mul_pos h0 (Nat.succ_pos _)
    have h2 := slabIx_lt hn (c := 0) (l := 0) (Nat.succ_pos _)
    simp only [slabIx, timeOrder_primal C.D (Or.inl rfl : (0 : Fin 4) = 0 ∨ _), add_zero] at h2
    unfold coupIx; omega
  inj c l l' _ _ e := by unfold coupIx at e; omega

theorem emb_top (h : C.Ok) : Emb C.fe.m C.slab C.bnd (topIx C.D) where
  big := h.slab
  small := h.bnd
  range c l hl := by
    rw [h.bndN] at hl
    rw [h.slabN, slabSizes_eq, timeOrder_primal _ (bndSizes_lt hl).1]; simp [topIx]
  inj c l l' hl hl' _ := by
    rw [h.bndN] at hl hl'; rw [(bndSizes_lt hl).2, (bndSizes_lt hl').2]

theorem emb_bot (h : C.Ok) : Emb C.fe.m C.slab C.bnd botIx where
  big := h.slab
  small := h.bnd
  range c l hl := by
    rw [h.bndN] at hl
    rw [h.slabN, slabSizes_eq]; simp [botIx]
  inj c l l' hl hl' _ := by
    rw [h.bndN] at hl hl'; rw [(bndSizes_lt hl).2, (bndSizes_lt hl').2]

/-! ### dof map lookups -/

theorem pyIdx_map_range {α : Type} (n : ℕ) (f : ℕ → α) {i : ℕ} (hi : i < n) :
    pyIdx ((List.range n).map f) (i : ℤ) = .ok (f i) := by
  simp [pyIdx, pyGet?, hi]

theorem flatMap_range_range {α : Type*} (N T : ℕ) (f : ℕ → α) :
    ((List.range N).flatMap fun n => (List.range T).map fun l => f (n * T + l))
      = (List.range (T * N)).map f := by
  induction N with
  | zero => simp
  | succ N ih =>
    rw [List.range_succ, List.flatMap_append, ih, Nat.mul_succ, List.range_add]
    simp [Function.comp_def, mul_comm]

theorem shift_eq (D : Disc V) (n : ℕ) (j : Fin 4) (l : ℕ) :
    (ctr D.q D.qstar n).shift j + (l : ℤ) = ((slabIx D n j l : ℕ) : ℤ) := by
  fin_cases j <;> simp [Counters.shift, ctr, slabIx, Disc.timeOrder]

theorem buildDofmapsFull_eq (D : Disc V) (L : FSpace) (j : Fin 4) :
    buildDofmapsFull D L j = (List.range ((D.timeOrder j + 1) * D.N)).map (L.collapse j) := by
  rw [buildDofmapsFull, slabLoop_eq, ← flatMap_range_range]
  congr 1
  funext n
  refine List.map_congr_left fun l _ => ?_
  rw [shift_eq]; rfl

theorem full_lookup (D : Disc V) (L : FSpace) {j : Fin 4} {i : ℕ}
    (hi : i < (D.timeOrder j + 1) * D.N) :
    pyIdx (buildDofmapsFull D L j) (i : ℤ) = .ok (L.collapse j i) := by
  rw [buildDofmapsFull_eq, pyIdx_map_range _ _ hi]

theorem blockLoop_eq (D : Disc V) {σ : Type} (c : Counters) (body : Fin 4 → ℤ → ℕ → M σ Unit) :
    blockLoop D c body = M.forList (blockList (slabSizes D.q D.qstar)) fun p =>
      body p.1 (c.shift p.1 + p.2) p.2 := by
  unfold blockLoop
  rw [M.forList_nested (β := ℕ) [0, 1, 2, 3] (fun j => List.range (D.timeOrder j + 1))]
  simp only [blockList, slabSizes_eq]

/-- The set-up state in which the matrix-free product can run. -/
structure MfReady (C : Cfg V) (o : Obj V) : Prop where
  dofmaps : o.dofmaps = some (mkDofmaps C)
  slabVecs : o.slabVecs = some ()
  slabMat : o.slabMatNJ = some (slabMatOf C false)
  coupVecs : 1 < C.D.N → o.coupVecs = some ()
  coupMat : 1 < C.D.N → o.coupMat = some (coupMatOf C)

theorem mfGather_run (hC : C.Ok) {w : World V} (hw : MfReady C w.obj) {vin : Ref}
    (h1 : vin ≠ .vecSlab1) {n : ℕ} (hn : n < C.D.N) :
    ∃ v, mfGather C vin (ctr C.D.q C.D.qstar n) w = (.ok (), w.put .vecSlab1 v) ∧
      ∀ e < C.slab.size, v e = pull C.fe.m C.full C.slab (slabIx C.D n) (w.heap vin) e := by
  unfold mfGather
  rw [blockLoop_eq, ← hC.slabN]
  refine loop_gather (emb_slab hC hn) w h1 _ fun p hp v => ?_
  have hp := mem_blockList.1 hp
  rw [hC.slabN, slabSizes_eq] at hp
  rw [M.bind_ok (M.attr_some (a := mkDofmaps C) (by exact hw.dofmaps))]
  rw [shift_eq, M.bind_ok (a := C.full.collapse p.1 (slabIx C.D n p.1 p.2))
    (by rw [M.lift_run]; exact congrArg (·, _) (full_lookup C.D C.full (slabIx_lt hn hp)))]
  rw [M.bind_ok (M.attr_some (a := ()) (by exact hw.slabVecs))]
  rw [M.bind_ok (a := C.slab.collapse p.1 p.2)
    (by rw [M.lift_run]; exact congrArg (·, _) (pyIdx_map_range _ _ hp))]

theorem mfScatter_run (hC : C.Ok) {w : World V} (hw : MfReady C w.obj) {vout : Ref}
    (h1 : vout ≠ .vecSlab2) {n : ℕ} (hn : n < C.D.N) :
    mfScatter C vout (ctr C.D.q C.D.qstar n) w = (.ok (), w.put vout
      (w.heap vout + push C.fe.m C.full C.slab (slabIx C.D n) (w.heap .vecSlab2))) := by
  unfold mfScatter
  rw [blockLoop_eq, ← hC.slabN]
  refine loop_scatterAdd (emb_slab hC hn) w h1.symm _ fun p hp v => ?_
  have hp := mem_blockList.1 hp
  rw [hC.slabN, slabSizes_eq] at hp
  rw [M.bind_ok (M.attr_some (a := mkDofmaps C) (by exact hw.dofmaps))]
  rw [shift_eq, M.bind_ok (a := C.full.collapse p.1 (slabIx C.D n p.1 p.2))
    (by rw [M.lift_run]; exact congrArg (·, _) (full_lookup C.D C.full (slabIx_lt hn hp)))]
  rw [M.bind_ok (M.attr_some (a := ()) (by exact hw.slabVecs))]
  rw [M.bind_ok (a := C.slab.collapse p.1 p.2)
    (by rw [M.lift_run]; exact congrArg (·, _) (pyIdx_map_range _ _ hp))]

theorem coupLoop_eq {σ : Type} (body : Fin 4 → ℕ → M σ Unit) :
    (M.forList [0, 1] fun (j : Fin 4) => M.forList (List.range 2) fun (i : ℕ) => body j i)
      = M.forList (blockList couplingSizes) fun p => body p.1 p.2 := by
  rw [M.forList_nested (β := ℕ) [0, 1] (fun _ => List.range 2)]
  rfl

theorem coup_idx {D : Disc V} {n : ℕ} (h0 : 0 < n) (i : ℕ) (c : Fin 4) :
    (ctr D.q D.qstar n).couplingQ + (i : ℤ) = ((coupIx D n c i : ℕ) : ℤ) := by
  have h1 : 1 ≤ n * (D.q + 1) := Nat.mul_pos h0 (Nat.succ_pos _)
  simp only [ctr, coupIx]
  rw [Nat.cast_add, Nat.cast_sub h1]; push_cast; ring

theorem coup_lookup {C : Cfg V} {j : Fin 4} {i : ℕ} (h : i < couplingSizes j) :
    pyIdx ((mkDofmaps C).coup j) (i : ℤ) = .ok (C.coup.collapse j i) := by
  obtain ⟨hj, hi⟩ := couplingSizes_lt h
  simp only [mkDofmaps, hj, if_true]
  exact pyIdx_map_range _ _ hi

theorem mfCoupGather_run (hC : C.Ok) {w : World V} (hw : MfReady C w.obj) {vin : Ref}
    (h1 : vin ≠ .vecCoupling1) {n : ℕ} (h0 : 0 < n) (hn : n < C.D.N) :
    ∃ v, mfCoupGather vin (ctr C.D.q C.D.qstar n) w = (.ok (), w.put .vecCoupling1 v) ∧
      ∀ e < C.coup.size, v e = pull C.fe.m C.full C.coup (coupIx C.D n) (w.heap vin) e := by
  have E := emb_coup hC h0 hn
  unfold mfCoupGather
  rw [coupLoop_eq, ← hC.coupN]
  refine loop_gather E w h1 _ fun p hp v => ?_
  have hp := mem_blockList.1 hp
  have hr := E.range _ _ hp
  rw [hC.fullN, fullSizes_eq] at hr
  rw [hC.coupN] at hp
  rw [M.bind_ok (M.attr_some (a := mkDofmaps C) (by exact hw.dofmaps))]
  rw [coup_idx h0 p.2 p.1, M.bind_ok (a := C.full.collapse p.1 (coupIx C.D n p.1 p.2))
    (by rw [M.lift_run]; exact congrArg (·, _) (full_lookup C.D C.full hr))]
  rw [M.bind_ok (M.attr_some (a := ()) (by exact hw.coupVecs (by omega)))]
  rw [M.bind_ok (a := C.coup.collapse p.1 p.2)
    (by rw [M.lift_run]; exact congrArg (·, _) (coup_lookup hp))]

theorem mfCoupScatter_run (hC : C.Ok) {w : World V} (hw : MfReady C w.obj) {vout : Ref}
    (h1 : vout ≠ .vecCoupling2) {n : ℕ} (h0 : 0 < n) (hn : n < C.D.N) :
    mfCoupScatter vout (ctr C.D.q C.D.qstar n) w = (.ok (), w.put vout
      (w.heap vout + push C.fe.m C.full C.coup (coupIx C.D n) (w.heap .vecCoupling2))) := by
  have E := emb_coup hC h0 hn
  unfold mfCoupScatter
  rw [coupLoop_eq, ← hC.coupN]
  refine loop_scatterAdd E w h1.symm _ fun p hp v => ?_
  have hp := mem_blockList.1 hp
  have hr := E.range _ _ hp
  rw [hC.fullN, fullSizes_eq] at hr
  rw [hC.coupN] at hp
  rw [M.bind_ok (M.attr_some (a := mkDofmaps C) (by exact hw.dofmaps))]
  rw [coup_idx h0 p.2 p.1, M.bind_ok (a := C.full.collapse p.1 (coupIx C.D n p.1 p.2))
    (by rw [M.lift_run]; exact congrArg (·, _) (full_lookup C.D C.full hr))]
  rw [M.bind_ok (M.attr_some (a := ()) (by exact hw.coupVecs (by omega)))]
  rw [M.bind_ok (a := C.coup.collapse p.1 p.2)
    (by rw [M.lift_run]; exact congrArg (·, _) (coup_lookup hp))]

theorem matMult_run {A : World V → Option Mat} {w : World V} {M' : Mat} (h : A w = some M')
    (x y : Ref) : matMult A x y w = (.ok (), w.put y (M'.mult (w.heap x))) := by
  unfold matMult
  rw [M.bind_ok (M.attr_some h)]; rfl

/-! ### the whole product -/

/-- Contribution of slab `n` to the matrix-free product. -/
noncomputable def mfPart (C : Cfg V) (x : Vec) (n : ℕ) : Vec :=
  push C.fe.m C.full C.slab (slabIx C.D n)
      ((slabMatOf C false).mult (pull C.fe.m C.full C.slab (slabIx C.D n) x)) +
    if 0 < n then push C.fe.m C.full C.coup (coupIx C.D n)
      ((coupMatOf C).mult (pull C.fe.m C.full C.coup (coupIx C.D n) x)) else 0

/-- Scratch vectors of the matrix-free product. -/
def mfScratch : Set Ref := {.vecSlab1, .vecSlab2, .vecCoupling1, .vecCoupling2}

theorem mfBody_run (hC : C.Ok) {w : World V} (hw : MfReady C w.obj) {vin vout : Ref}
    (hi : vin ∉ mfScratch) (ho : vout ∉ mfScratch) {x : Vec} (hx : w.heap vin = x)
    (halias : vin = vout → x = 0) {n : ℕ} (hn : n < C.D.N) :
    ∃ w', mfBody C vin vout (ctr C.D.q C.D.qstar n) n w = (.ok (), w') ∧
      w'.obj = w.obj ∧ w'.sched = w.sched ∧ w'.clock = w.clock ∧
      (∀ r, r ∉ mfScratch → r ≠ vout → w'.heap r = w.heap r) ∧
      w'.heap vout = w.heap vout + mfPart C x n := by
  simp only [mfScratch, Set.mem_insert_iff, Set.mem_singleton_iff, not_or] at hi ho
  obtain ⟨hi1, hi2, hi3, hi4⟩ := hi
  obtain ⟨ho1, ho2, ho3, ho4⟩ := ho
  obtain ⟨v, e1, e1'⟩ := mfGather_run hC hw hi1 hn
  unfold mfBody
  rw [M.bind_ok e1, M.bind_ok (matMult_run (M' := slabMatOf C false) (by exact hw.slabMat) _ _)]
  simp only [put_same]
  have hmul : (slabMatOf C false).mult v = (slabMatOf C false).mult
      (pull C.fe.m C.full C.slab (slabIx C.D n) x) :=
    Mat.mult_congr _ fun d hd => by rw [e1' d hd, hx]
  rw [hmul, M.bind_ok (mfScatter_run hC (by exact hw) ho2 hn)]
  simp only [put_same, put_ne _ ho2, put_ne _ ho1]
  by_cases h0 : 0 < n
  · simp only [h0, if_true]
    set w1 := (((w.put .vecSlab1 v).put .vecSlab2 _).put vout _) with hw1
    have hx1 : w1.heap vin = x := by
      by_cases hv : vin = vout
      · subst hv
        have hx0 := halias rfl
        rw [hw1, put_same, hx, hx0]
        have hz : pull C.fe.m C.full C.slab (slabIx C.D n) (0 : Vec) = 0 := by
          simpa using pull_smul C.fe.m C.full C.slab (slabIx C.D n) 0 0
        have hz' : push C.fe.m C.full C.slab (slabIx C.D n) (0 : Vec) = 0 := by
          simpa using push_smul C.fe.m C.full C.slab (slabIx C.D n) 0 0
        rw [hz, Mat.mult_zero, hz', add_zero]
      · rw [hw1, put_ne _ hv, put_ne _ hi2, put_ne _ hi1, hx]
    obtain ⟨v2, e2, e2'⟩ := mfCoupGather_run hC (w := w1) (by exact hw) hi3 h0 hn
    rw [M.bind_ok e2, M.bind_ok (matMult_run (M' := coupMatOf C) (by exact hw.coupMat (by omega)) _ _)]
    simp only [put_same]
    have hmul2 : (coupMatOf C).mult v2 = (coupMatOf C).mult
        (pull C.fe.m C.full C.coup (coupIx C.D n) x) :=
      Mat.mult_congr _ fun d hd => by rw [e2' d hd, hx1]
    rw [hmul2, mfCoupScatter_run hC (by exact hw) ho4 h0 hn]
    refine ⟨_, rfl, rfl, rfl, rfl, fun r hr hrv => ?_, ?_⟩
    · simp only [mfScratch, Set.mem_insert_iff, Set.mem_singleton_iff, not_or] at hr
      rw [put_ne _ hrv, put_ne _ hr.2.2.2, put_ne _ hr.2.2.1, hw1, put_ne _ hrv, put_ne _ hr.2.1,
        put_ne _ hr.1]
    · rw [put_same, put_ne _ ho4, put_ne _ ho3, put_same, hw1, put_same, mfPart, if_pos h0, add_assoc]
  · simp only [h0, if_false]
    refine ⟨_, rfl, rfl, rfl, rfl, fun r hr hrv => ?_, ?_⟩
    · simp only [mfScratch, Set.mem_insert_iff, Set.mem_singleton_iff, not_or] at hr
      rw [put_ne _ hrv, put_ne _ hr.2.1, put_ne _ hr.1]
    · rw [put_same, mfPart, if_neg h0, add_zero]

/-- The operator computed by the matrix-free product. -/
noncomputable def mfOp (C : Cfg V) (x : Vec) : Vec := ∑ n ∈ range C.D.N, mfPart C x n

theorem mfPart_zero (C : Cfg V) (n : ℕ) : mfPart C 0 n = 0 := by
  have hz : ∀ (A B : FSpace) ix, pull C.fe.m A B ix (0 : Vec) = 0 := fun A B ix => by
    simpa using pull_smul C.fe.m A B ix 0 0
  have hz' : ∀ (A B : FSpace) ix, push C.fe.m A B ix (0 : Vec) = 0 := fun A B ix => by
    simpa using push_smul C.fe.m A B ix 0 0
  simp [mfPart, hz, hz', Mat.mult_zero]

theorem mfOp_zero (C : Cfg V) : mfOp C 0 = 0 := by
  unfold mfOp; exact sum_eq_zero fun n _ => mfPart_zero C n

theorem apply_run (hC : C.Ok) {w : World V} (hw : MfReady C w.obj) {vin vout : Ref}
    (hi : vin ∉ mfScratch) (ho : vout ∉ mfScratch) :
    ∃ w', applySpacetimeMatrix C vin vout w = (.ok (), w') ∧
      w'.obj = w.obj ∧ w'.sched = w.sched ∧ w'.clock = w.clock ∧
      (∀ r, r ∉ mfScratch → r ≠ vout → w'.heap r = w.heap r) ∧
      w'.heap vout = mfOp C (if vin = vout then 0 else w.heap vin) := by
  set x : Vec := if vin = vout then 0 else w.heap vin with hxdef
  unfold applySpacetimeMatrix
  rw [M.bind_ok (setVec_run _ _ _)]
  have key := slabForM_ok (q := C.D.q) (qstar := C.D.qstar) (N := C.D.N) (body := mfBody C vin vout)
    (fun n w' => w'.obj = w.obj ∧ w'.sched = w.sched ∧ w'.clock = w.clock ∧
      (∀ r, r ∉ mfScratch → r ≠ vout → w'.heap r = w.heap r) ∧
      w'.heap vout = ∑ k ∈ range n, mfPart C x k) ?_ (w.put vout 0)
      ⟨rfl, rfl, rfl, fun r _ hr => put_ne _ hr _, by simp⟩
  · exact key
  · rintro n w1 hn ⟨h1, h2, h3, h4, h5⟩
    have hx1 : w1.heap vin = x := by
      by_cases hv : vin = vout
      · have : x = 0 := by rw [hxdef, if_pos hv]
        rw [hv, h5, this]; exact sum_eq_zero fun n _ => mfPart_zero C n
      · rw [h4 _ hi hv, hxdef, if_neg hv]
    obtain ⟨w2, e, g1, g2, g3, g4, g5⟩ := mfBody_run hC (w := w1) (by rw [h1]; exact hw) hi ho hx1
      (fun hv => by rw [hxdef, if_pos hv]) hn
    refine ⟨w2, e, g1.trans h1, g2.trans h2, g3.trans h3, fun r hr hrv => ?_, ?_⟩
    · rw [g4 r hr hrv, h4 r hr hrv]
    · rw [g5, h5, sum_range_succ]

end Dxss
