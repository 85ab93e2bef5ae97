import Verif.Lemmas.Precond
import Verif.Lemmas.Decompose

/-! # The block-triangular system solved by time marching -/

namespace Dxss
open Finset
set_option linter.unusedSectionVars false
variable {V : Type} [AddCommGroup V] [Module ℝ V]

/-! ### composition of embeddings -/

theorem Emb.comp {m : Fin 4 → ℕ} {A B D : FSpace} {ix ix' : Fin 4 → ℕ → ℕ} (E : Emb m A B ix)
    (E' : Emb m B D ix') : Emb m A D (fun c l => ix c (ix' c l)) where
  big := E.big
  small := E'.small
  range c l hl := E.range c _ (E'.range c l hl)
  inj c l l' hl hl' h := E'.inj c l l' hl hl' (E.inj c _ _ (E'.range c l hl) (E'.range c l' hl') h)

theorem push_comp {m : Fin 4 → ℕ} {A B D : FSpace} {ix ix' : Fin 4 → ℕ → ℕ} (E : Emb m A B ix)
    (E' : Emb m B D ix') (v : Vec) :
    push m A B ix (push m B D ix' v) = push m A D (fun c l => ix c (ix' c l)) v := by
  funext d
  by_cases hd : d < A.size
  · obtain ⟨c, i, s, hi, hs, rfl⟩ := E.big.surj d hd
    by_cases h : ∃ l < B.nsub c, ix c l = i
    · obtain ⟨l, hl, rfl⟩ := h
      rw [push_dof E _ hl hs]
      by_cases h' : ∃ l' < D.nsub c, ix' c l' = l
      · obtain ⟨l', hl', rfl⟩ := h'
        rw [push_dof E' _ hl' hs, push_dof (E.comp E') _ hl' hs]
      · push Not at h'
        rw [push_dof_other E' _ hl hs h', push_dof_other (E.comp E') _ hi hs]
        intro l' hl' he
        exact h' l' hl' (E.inj c _ _ (E'.range c l' hl') hl he)
    · push Not at h
      rw [push_dof_other E _ hi hs h, push_dof_other (E.comp E') _ hi hs]
      intro l' hl'
      exact h _ (E'.range c l' hl')
  · rw [push_ge E _ hd, push_ge (E.comp E') _ hd]

variable {C : Cfg V}

/-! ### blocks of the full space -/

theorem full_surj (hC : C.Ok) {d : ℕ} (hd : d < C.full.size) :
    ∃ n c l s, n < C.D.N ∧ l < C.slab.nsub c ∧ s < C.fe.m c ∧
      C.full.dof c (slabIx C.D n c l) s = d := by
  obtain ⟨c, i, s, hi, hs, rfl⟩ := hC.full.surj d hd
  rw [hC.fullN, fullSizes_eq] at hi
  refine ⟨i / (C.D.timeOrder c + 1), c, i % (C.D.timeOrder c + 1), s, ?_, ?_, hs, ?_⟩
  · exact Nat.div_lt_of_lt_mul hi
  · rw [hC.slabN, slabSizes_eq]; exact Nat.mod_lt _ (Nat.succ_pos _)
  · rw [slabIx, Nat.div_add_mod']

theorem pushS_dof (hC : C.Ok) {n k : ℕ} (hn : n < C.D.N) (hk : k < C.D.N) (v : Vec) {c : Fin 4}
    {l s : ℕ} (hl : l < C.slab.nsub c) (hs : s < C.fe.m c) :
    pushS C k v (C.full.dof c (slabIx C.D n c l) s) = if k = n then v (C.slab.dof c l s) else 0 := by
  split
  · rename_i h; subst h; exact push_dof (emb_slab hC hn) v hl hs
  · rename_i h
    unfold pushS push
    refine bsum_eq_zero fun c' l' s' hl' hs' => if_neg ?_
    exact off_of_ne hC hn hk (Ne.symm h) hl hs c' l' s' hl' hs'

/-- The sum of extended blocks, evaluated on block `n`. -/
theorem sum_pushS_dof (hC : C.Ok) (v : ℕ → Vec) {n : ℕ} (hn : n < C.D.N) {c : Fin 4} {l s : ℕ}
    (hl : l < C.slab.nsub c) (hs : s < C.fe.m c) :
    (∑ k ∈ range C.D.N, pushS C k (v k)) (C.full.dof c (slabIx C.D n c l) s)
      = v n (C.slab.dof c l s) := by
  rw [Finset.sum_apply, sum_eq_single n]
  · rw [pushS_dof hC hn hn _ hl hs, if_pos rfl]
  · intro k hk hne
    rw [pushS_dof hC hn (mem_range.1 hk) _ hl hs, if_neg hne]
  · intro h; exact absurd (mem_range.2 hn) h

theorem sum_push_pull (hC : C.Ok) (b : Vec) {d : ℕ} (hd : d < C.full.size) :
    (∑ k ∈ range C.D.N, pushS C k (pullS C k b)) d = b d := by
  obtain ⟨n, c, l, s, hn, hl, hs, rfl⟩ := full_surj hC hd
  rw [sum_pushS_dof hC _ hn hl hs]
  exact pull_dof (emb_slab hC hn) b hl hs

theorem pullS_sum (hC : C.Ok) (v : ℕ → Vec) {n : ℕ} (hn : n < C.D.N) {e : ℕ} (he : e < C.slab.size) :
    pullS C n (∑ k ∈ range C.D.N, pushS C k (v k)) e = v n e := by
  obtain ⟨c, l, s, hl, hs, rfl⟩ := hC.slab.surj e he
  unfold pullS
  rw [pull_dof (emb_slab hC hn) _ hl hs, sum_pushS_dof hC v hn hl hs]

theorem pullS_of_blockEq (hC : C.Ok) {n : ℕ} (hn : n < C.D.N) {x u : Vec} (h : BlockEq C n x u) {e : ℕ}
    (he : e < C.slab.size) : pullS C n x e = u e := by
  obtain ⟨c, l, s, hl, hs, rfl⟩ := hC.slab.surj e he
  unfold pullS
  rw [pull_dof (emb_slab hC hn) _ hl hs]
  exact h c l s hl hs

theorem pullS_ge (hC : C.Ok) {n : ℕ} (hn : n < C.D.N) (x : Vec) {e : ℕ} (he : ¬ e < C.slab.size) :
    pullS C n x e = 0 := pull_ge (emb_slab hC hn) x he
theorem carry_ge (hC : C.Ok) (u : Vec) {e : ℕ} (he : ¬ e < C.slab.size) : carry C u e = 0 :=
  push_ge (emb_bot hC) _ he

/-! ### the operator `P` -/

/-- The matrix of the slab solver used on slab `n`. -/
noncomputable def slabOp (C : Cfg V) (n : ℕ) : Mat :=
  if n = 0 then slabMatOf C C.D.wellPosed else slabMatOf C true

theorem slabOp_congr (n : ℕ) {u v : Vec} (h : ∀ e < C.slab.size, u e = v e) :
    (slabOp C n).mult u = (slabOp C n).mult v := by
  unfold slabOp; split <;> exact Mat.mult_congr _ h
theorem slabOp_ge (n : ℕ) (u : Vec) {e : ℕ} (he : ¬ e < C.slab.size) : (slabOp C n).mult u e = 0 := by
  unfold slabOp; split <;> exact assemble_mult_ge _ _ _ _ _ _ he

/-- Block `n` of `P x`. -/
noncomputable def pBlock (C : Cfg V) (x : Vec) : ℕ → Vec
  | 0 => (slabOp C 0).mult (pullS C 0 x)
  | n + 1 => (slabOp C (n + 1)).mult (pullS C (n + 1) x) - carry C (pullS C n x)

theorem pushS_sub (n : ℕ) (u v : Vec) : pushS C n (u - v) = pushS C n u - pushS C n v := by
  have h1 : u - v = u + (-1 : ℝ) • v := by simp [sub_eq_add_neg]
  rw [h1, pushS, push_add, push_smul]
  simp [pushS, sub_eq_add_neg]

theorem pushS_slab (hC : C.Ok) (hfw : C.D.jumpsFw = false) (x : Vec) {n : ℕ} (hn : n < C.D.N) (d : ℕ) :
    let U := C.full.field C.fe x
    let W := C.full.field C.fe (unitVec d)
    pushS C n ((slabOp C n).mult (pullS C n x)) d
      = slabPlaceholder C.S C.D U W n + evalForm C.S C.D.ind (C.D.core (ctr C.D.q C.D.qstar n)) U W
        + if n = 0 ∧ C.D.wellPosed = false then 0 else bottomEnergy C.S C.D U W n := by
  intro U W
  have key : ∀ j, pushS C n ((slabMatOf C j).mult (pullS C n x)) d
      = evalForm C.S C.D.ind (C.D.slabForm j) (Field.slab C.D n U) (Field.slab C.D n W) := by
    intro j
    unfold pushS pullS slabMatOf
    rw [push_assemble _ _ _ (emb_slab hC hn), field_pull (emb_slab hC hn), field_pull (emb_slab hC hn)]
    exact evalForm_congr (C11_slab_indices C.D j) _ _ (sub_slab_congr hC _ n) (sub_slab_congr hC _ n)
  unfold slabOp
  by_cases h0 : n = 0
  · rw [if_pos h0, key]
    cases hw : C.D.wellPosed
    · rw [if_pos ⟨h0, rfl⟩, evalForm_slab_noJumps, add_zero]
    · rw [if_neg (by simp), evalForm_slab_jumps _ _ _ _ _ _ hfw]
  · rw [if_neg h0, key, if_neg (by tauto), evalForm_slab_jumps _ _ _ _ _ _ hfw]

/-- Interface term of the load carried to slab `n + 1`. -/
noncomputable def carryEnergy (S : Space V) (D : Disc V) (U W : Field V) (n : ℕ) : ℝ :=
  D.gJump * Spec.jumpForm S D.dt (U 0 (n * (D.q + 1) - 1)) (U 1 (n * (D.q + 1) - 1))
    (W 0 (n * (D.q + 1))) (W 1 (n * (D.q + 1)))

theorem eval_bndForm (S : Space V) (D : Disc V) (ind : V) (U W : Field V) :
    evalForm S ind D.bndForm U W = D.gJump * Spec.jumpForm S D.dt (U 0 0) (U 1 0) (W 0 0) (W 1 0) := by
  simp only [Disc.bndForm, evalForm_cons, evalForm_nil, Term.eval, eval_at, SOp.eval, Spec.jumpForm]
  ring

theorem sub_bnd (hC : C.Ok) (ix : Fin 4 → ℕ → ℕ) (U : Field V) (c : Fin 4) (hc : c = 0 ∨ c = 1) :
    Field.sub C.bnd ix U c 0 = U c (ix c 0) := by
  rw [Field.sub, if_pos]; · rfl
  rw [hC.bndN]
  rcases hc with rfl | rfl <;> simp [bndSizes]

theorem sub_slab (ix : Fin 4 → ℕ → ℕ) (U : Field V) (c : Fin 4) {l : ℕ}
    (hl : l < C.slab.nsub c) : Field.sub C.slab ix U c l = U c (ix c l) := by
  rw [Field.sub, if_pos ⟨by omega, by exact_mod_cast hl⟩, Int.toNat_natCast]

/-- The carried load as a linear form of the slab test function. -/
theorem carry_apply (hC : C.Ok) (u : Vec) (d : ℕ) :
    carry C u d = C.D.gJump * Spec.jumpForm C.S C.D.dt
      (C.slab.field C.fe u 0 C.D.q) (C.slab.field C.fe u 1 C.D.q)
      (C.slab.field C.fe (unitVec d) 0 0) (C.slab.field C.fe (unitVec d) 1 0) := by
  unfold carry bndMatOf
  rw [push_assemble _ _ _ (emb_bot hC), field_pull (emb_top hC), field_pull (emb_bot hC), eval_bndForm]
  simp only [sub_bnd hC _ _ 0 (Or.inl rfl), sub_bnd hC _ _ 1 (Or.inr rfl), topIx, botIx, Nat.cast_zero]

theorem pushS_carry (hC : C.Ok) (x : Vec) {n : ℕ} (hn : n + 1 < C.D.N) (d : ℕ) :
    pushS C (n + 1) (carry C (pullS C n x)) d
      = carryEnergy C.S C.D (C.full.field C.fe x) (C.full.field C.fe (unitVec d)) (n + 1) := by
  have h0 : ∀ c : Fin 4, c = 0 ∨ c = 1 → C.D.q < C.slab.nsub c := fun c hc => by
    rw [hC.slabN, slabSizes_eq, timeOrder_primal _ hc]; omega
  have e1 : ∀ c : Fin 4, c = 0 ∨ c = 1 → ∀ U : Field V,
      U c ((slabIx C.D n c C.D.q : ℕ) : ℤ) = U c ((n + 1 : ℕ) * (C.D.q + 1) - 1) := fun c hc U => by
    rw [slabIx, timeOrder_primal _ hc]; congr 1; push_cast; ring
  have e2 : ∀ c : Fin 4, c = 0 ∨ c = 1 → ∀ U : Field V,
      U c ((slabIx C.D (n + 1) c 0 : ℕ) : ℤ) = U c ((n + 1 : ℕ) * (C.D.q + 1)) := fun c hc U => by
    rw [slabIx, timeOrder_primal _ hc]; congr 1
  unfold pushS carry pullS bndMatOf
  rw [push_comp (emb_slab hC hn) (emb_bot hC),
    push_assemble _ _ _ ((emb_slab hC hn).comp (emb_bot hC)), field_pull (emb_top hC),
    field_pull (emb_slab hC (by omega)), field_pull ((emb_slab hC hn).comp (emb_bot hC)),
    eval_bndForm, carryEnergy]
  simp only [sub_bnd hC _ _ 0 (Or.inl rfl), sub_bnd hC _ _ 1 (Or.inr rfl), topIx, botIx]
  rw [sub_slab _ _ 0 (h0 0 (Or.inl rfl)), sub_slab _ _ 1 (h0 1 (Or.inr rfl))]
  simp only [e1 0 (Or.inl rfl) (C.full.field C.fe x), e1 1 (Or.inr rfl) (C.full.field C.fe x),
    e2 0 (Or.inl rfl) (C.full.field C.fe (unitVec d)), e2 1 (Or.inr rfl) (C.full.field C.fe (unitVec d))]

theorem evalForm_jump_true (S : Space V) (D : Disc V) (ind : V) (U W : Field V) {n : ℕ} (h0 : 0 < n) :
    evalForm S ind (D.stJump true (ctr D.q D.qstar n) n) U W
      = bottomEnergy S D U W n - carryEnergy S D U W n := by
  have i1 : (ctr D.q D.qstar n).couplingQ + 1 = n * (D.q + 1) := by simp [ctr]
  have i3 : (ctr D.q D.qstar n).couplingQ = n * (D.q + 1) - 1 := rfl
  simp only [Disc.stJump, h0, if_true, i1]
  simp only [evalForm_cons, evalForm_nil, Term.eval, eval_at, eval_diff, i3, SOp.eval, bottomEnergy,
    carryEnergy, Spec.jumpForm, map_sub, LinearMap.sub_apply]
  ring

/-- The extra placeholder summands: every slab matrix has one, the space-time matrix has one. -/
noncomputable def pPlaceholders (S : Space V) (D : Disc V) (U W : Field V) : ℝ :=
  ∑ n ∈ range D.N, if n = 0 then 0 else
    1e-20 * S.mass (U 0 (n * (D.q + 1))) (W 2 (n * (D.qstar + 1)))

/-- The matrix of `get_spacetime_matrix(precond=True)` is block lower triangular with these blocks. -/
theorem pOp_eq (hC : C.Ok) (hN : 1 ≤ C.D.N) (hfw : C.D.jumpsFw = false) (x : Vec) {d : ℕ}
    (hd : d < C.full.size) :
    (stMatOf C true).mult x d
        + pPlaceholders C.S C.D (C.full.field C.fe x) (C.full.field C.fe (unitVec d))
      = (∑ n ∈ range C.D.N, pushS C n (pBlock C x n)) d := by
  set U := C.full.field C.fe x with hU
  set W := C.full.field C.fe (unitVec d) with hW
  rw [stMatOf, assemble_mult _ _ _ _ _ hC.full _ hd, stForm_decompose, ← hU, ← hW, Finset.sum_apply]
  obtain ⟨N', hN'⟩ : ∃ N', C.D.N = N' + 1 := ⟨C.D.N - 1, by omega⟩
  simp only [pPlaceholders, hN', sum_range_succ' _ N']
  simp only [if_true, Nat.succ_ne_zero, if_false, add_zero]
  have ei : evalForm C.S C.D.ind (C.D.stInitial 0) U W
      = if (0 = 0 ∧ C.D.wellPosed = false) then 0 else bottomEnergy C.S C.D U W 0 := by
    cases hw : C.D.wellPosed <;>
      simp [Disc.stInitial, hw, Term.eval, SOp.eval, Spec.jumpForm, bottomEnergy]
    ring
  have z1 : evalForm C.S C.D.ind (C.D.stDualJump (ctr C.D.q C.D.qstar 0) 0) U W = 0 := by
    simp [Disc.stDualJump]
  have z2 : evalForm C.S C.D.ind (C.D.stFwJump (ctr C.D.q C.D.qstar 0) 0) U W = 0 := by
    simp [Disc.stFwJump]
  have z3 : evalForm C.S C.D.ind (C.D.stJump true (ctr C.D.q C.D.qstar 0) 0) U W = 0 := by
    simp [Disc.stJump]
  have p0 := pushS_slab hC hfw x (n := 0) (by omega) d
  simp only [← hU, ← hW] at p0
  change _ = _ + pushS C 0 ((slabOp C 0).mult (pullS C 0 x)) d
  rw [p0, ei, z1, z2, z3]
  have hs : ∀ n ∈ range N', pushS C (n + 1) (pBlock C x (n + 1)) d
      = evalForm C.S C.D.ind (C.D.core (ctr C.D.q C.D.qstar (n + 1))) U W
          + evalForm C.S C.D.ind (C.D.stInitial (n + 1)) U W
          + (evalForm C.S C.D.ind (C.D.stDualJump (ctr C.D.q C.D.qstar (n + 1)) (n + 1)) U W
            + evalForm C.S C.D.ind (C.D.stFwJump (ctr C.D.q C.D.qstar (n + 1)) (n + 1)) U W)
          + evalForm C.S C.D.ind (C.D.stJump true (ctr C.D.q C.D.qstar (n + 1)) (n + 1)) U W
        + 1e-20 * C.S.mass (U 0 ((n + 1 : ℕ) * (C.D.q + 1))) (W 2 ((n + 1 : ℕ) * (C.D.qstar + 1))) := by
    intro n hn
    have hn := mem_range.1 hn
    have a1 : evalForm C.S C.D.ind (C.D.stInitial (n + 1)) U W = 0 := by simp [Disc.stInitial]
    have a2 : evalForm C.S C.D.ind (C.D.stDualJump (ctr C.D.q C.D.qstar (n + 1)) (n + 1)) U W = 0 := by
      simp [Disc.stDualJump, hfw]
    have a3 : evalForm C.S C.D.ind (C.D.stFwJump (ctr C.D.q C.D.qstar (n + 1)) (n + 1)) U W = 0 := by
      simp [Disc.stFwJump, hfw]
    have ps := pushS_slab hC hfw x (n := n + 1) (by omega) d
    simp only [← hU, ← hW] at ps
    rw [pBlock, pushS_sub, Pi.sub_apply, ps, pushS_carry hC x (by omega) d, a1, a2, a3,
      evalForm_jump_true _ _ _ _ _ (Nat.succ_pos n), if_neg (by omega), slabPlaceholder]
    ring
  rw [sum_congr rfl hs]
  simp only [sum_add_distrib]
  abel

end Dxss
