import Verif.Props.Inexact
import Verif.Lemmas.Krylov

/-!
# The matrix-free product and the preconditioner differ on the interfaces only
-/

namespace Dxss
open Finset Module
set_option linter.unusedSectionVars false
variable {V : Type} [AddCommGroup V] [Module ℝ V] {C : Cfg V}

/-- What the preconditioner inverts. -/
noncomputable def pAll (C : Cfg V) (x : Vec) (d : ℕ) : ℝ :=
  (stMatOf C true).mult x d + pPlaceholders C.S C.D (C.full.field C.fe x) (C.full.field C.fe (unitVec d))

/-- What the matrix-free product computes. -/
noncomputable def mfAll (C : Cfg V) (x : Vec) (d : ℕ) : ℝ :=
  (stMatOf C false).mult x d + mfPlaceholders C.S C.D (C.full.field C.fe x) (C.full.field C.fe (unitVec d))

/-- The jumps at interface `n`, tested with a pair `(w1, w2)`, and the placeholder of the coupling matrix. -/
noncomputable def lowerAt (S : Space V) (D : Disc V) (U : Field V) (n : ℕ) (w1 w2 : V) : ℝ :=
  D.gJump * Spec.jumpForm S D.dt (U 0 (n * (D.q + 1)) - U 0 (n * (D.q + 1) - 1))
      (U 1 (n * (D.q + 1)) - U 1 (n * (D.q + 1) - 1)) w1 w2
    - 1e-20 * S.mass (U 0 (n * (D.q + 1) - 1)) w1

/-- The difference: the jumps tested with the lower trace. -/
noncomputable def lowerTerms (S : Space V) (D : Disc V) (U W : Field V) : ℝ :=
  ∑ n ∈ range D.N, if n = 0 then 0 else lowerAt S D U n (W 0 (n * (D.q + 1) - 1)) (W 1 (n * (D.q + 1) - 1))

theorem evalForm_jump_false (S : Space V) (D : Disc V) (ind : V) (U W : Field V) {n : ℕ} (h0 : 0 < n) :
    evalForm S ind (D.stJump false (ctr D.q D.qstar n) n) U W
      = evalForm S ind (D.stJump true (ctr D.q D.qstar n) n) U W
        - D.gJump * Spec.jumpForm S D.dt (U 0 (n * (D.q + 1)) - U 0 (n * (D.q + 1) - 1))
          (U 1 (n * (D.q + 1)) - U 1 (n * (D.q + 1) - 1)) (W 0 (n * (D.q + 1) - 1)) (W 1 (n * (D.q + 1) - 1)) := by
  have i1 : (ctr D.q D.qstar n).couplingQ + 1 = n * (D.q + 1) := by simp [ctr]
  have i3 : (ctr D.q D.qstar n).couplingQ = n * (D.q + 1) - 1 := rfl
  simp only [Disc.stJump, h0, if_true, i1, Bool.false_eq_true, if_false]
  simp only [evalForm_cons, evalForm_nil, Term.eval, eval_at, eval_diff, i3, SOp.eval, Spec.jumpForm, map_sub,
    LinearMap.sub_apply]
  ring

theorem mfAll_eq (hC : C.Ok) (x : Vec) {d : ℕ} (hd : d < C.full.size) :
    mfAll C x d = pAll C x d - lowerTerms C.S C.D (C.full.field C.fe x) (C.full.field C.fe (unitVec d)) := by
  set U := C.full.field C.fe x with hU
  set W := C.full.field C.fe (unitVec d) with hW
  rw [mfAll, pAll, stMatOf, stMatOf, assemble_mult _ _ _ _ _ hC.full _ hd, assemble_mult _ _ _ _ _ hC.full _ hd,
    stForm_decompose, stForm_decompose, ← hU, ← hW, pPlaceholders, mfPlaceholders, lowerTerms]
  rw [add_assoc, add_assoc, add_sub_assoc, ← sum_add_distrib, ← sum_add_distrib, ← sum_sub_distrib]
  congr 1
  refine sum_congr rfl fun n _ => ?_
  by_cases h0 : n = 0
  · subst h0
    simp [Disc.stJump]
  · rw [if_neg h0, if_neg h0, if_neg h0, evalForm_jump_false _ _ _ _ _ (Nat.pos_of_ne_zero h0), lowerAt]
    ring

/-! ### linearity -/

theorem pPlaceholders_add (S : Space V) (D : Disc V) (U U' W : Field V) :
    pPlaceholders S D (U + U') W = pPlaceholders S D U W + pPlaceholders S D U' W := by
  simp only [pPlaceholders, ← sum_add_distrib]
  refine sum_congr rfl fun n _ => ?_
  split
  · simp
  · simp only [Pi.add_apply, map_add, LinearMap.add_apply]; ring

theorem pPlaceholders_smul (S : Space V) (D : Disc V) (r : ℝ) (U W : Field V) :
    pPlaceholders S D (r • U) W = r * pPlaceholders S D U W := by
  simp only [pPlaceholders, mul_sum]
  refine sum_congr rfl fun n _ => ?_
  split
  · simp
  · simp only [Pi.smul_apply, map_smul, LinearMap.smul_apply, smul_eq_mul]; ring

theorem mfPlaceholders_add (S : Space V) (D : Disc V) (U U' W : Field V) :
    mfPlaceholders S D (U + U') W = mfPlaceholders S D U W + mfPlaceholders S D U' W := by
  simp only [mfPlaceholders, ← sum_add_distrib]
  refine sum_congr rfl fun n _ => ?_
  split
  · simp
  · simp only [Pi.add_apply, map_add, LinearMap.add_apply]; ring

theorem mfPlaceholders_smul (S : Space V) (D : Disc V) (r : ℝ) (U W : Field V) :
    mfPlaceholders S D (r • U) W = r * mfPlaceholders S D U W := by
  simp only [mfPlaceholders, mul_sum]
  refine sum_congr rfl fun n _ => ?_
  split
  · simp
  · simp only [Pi.smul_apply, map_smul, LinearMap.smul_apply, smul_eq_mul]; ring

theorem pAll_add (x y : Vec) (d : ℕ) : pAll C (x + y) d = pAll C x d + pAll C y d := by
  rw [pAll, Mat.mult_add, field_add, pPlaceholders_add, Pi.add_apply, pAll, pAll]; ring

theorem pAll_smul (r : ℝ) (x : Vec) (d : ℕ) : pAll C (r • x) d = r * pAll C x d := by
  rw [pAll, Mat.mult_smul, field_smul, pPlaceholders_smul, Pi.smul_apply, pAll, smul_eq_mul]; ring

theorem mfAll_add (x y : Vec) (d : ℕ) : mfAll C (x + y) d = mfAll C x d + mfAll C y d := by
  rw [mfAll, Mat.mult_add, field_add, mfPlaceholders_add, Pi.add_apply, mfAll, mfAll]; ring

theorem mfAll_smul (r : ℝ) (x : Vec) (d : ℕ) : mfAll C (r • x) d = r * mfAll C x d := by
  rw [mfAll, Mat.mult_smul, field_smul, mfPlaceholders_smul, Pi.smul_apply, mfAll, smul_eq_mul]; ring

theorem pAll_congr (hC : C.Ok) {x y : Vec} (h : ∀ d < C.full.size, x d = y d) (d : ℕ) : pAll C x d = pAll C y d := by
  rw [pAll, pAll, field_congr _ _ hC.full h, (stMatOf C true).mult_congr h]

theorem mfAll_congr (hC : C.Ok) {x y : Vec} (h : ∀ d < C.full.size, x d = y d) (d : ℕ) :
    mfAll C x d = mfAll C y d := by
  rw [mfAll, mfAll, field_congr _ _ hC.full h, (stMatOf C false).mult_congr h]

/-! ### the preconditioner is injective -/

theorem Mat.UniquelySolvable.kernel {A : Mat} (h : A.UniquelySolvable) : A.TrivialKernel := by
  intro x hx d hd
  obtain ⟨z, -, hz⟩ := h 0
  rw [hz x hx d hd, ← hz 0 (fun e _ => by rw [Mat.mult_zero]) d hd]
  rfl

theorem pAll_kernel (hC : C.Ok) (hN : 1 ≤ C.D.N) (hfw : C.D.jumpsFw = false)
    (h1 : (slabMatOf C C.D.wellPosed).TrivialKernel) (h2 : (slabMatOf C true).TrivialKernel) {x : Vec}
    (hx : ∀ d < C.full.size, pAll C x d = 0) : ∀ d < C.full.size, x d = 0 := by
  have hz : ∀ d < C.full.size, (∑ n ∈ range C.D.N, pushS C n (pBlock C x n)) d = (0 : Vec) d := by
    intro d hd
    rw [← pOp_eq hC hN hfw x hd]
    exact hx d hd
  have hb : ∀ n < C.D.N, ∀ e < C.slab.size, pBlock C x n e = 0 := by
    intro n hn e he
    rw [← pullS_sum hC (pBlock C x) hn he, pullS_congr hC hz hn]
    obtain ⟨c, l, s, hl, hs, rfl⟩ := hC.slab.surj e he
    exact pull_dof (emb_slab hC hn) _ hl hs
  have key : ∀ n < C.D.N, ∀ e < C.slab.size, pullS C n x e = 0 := by
    intro n
    induction n with
    | zero =>
      intro hn e he
      refine h1 _ (fun e he => ?_) e he
      have := hb 0 hn e he
      rwa [pBlock, slabOp, if_pos rfl] at this
    | succ n ih =>
      intro hn e he
      refine h2 _ (fun e he => ?_) e he
      have := hb (n + 1) hn e he
      have hc : carry C (pullS C n x) = carry C 0 := carry_congr hC fun e he => ih (by omega) e he
      have hc0 : carry C (0 : Vec) e = 0 := by
        have := congrFun (carry_lin (C := C) 0 0 0 0) e
        simpa using this
      rw [pBlock, Pi.sub_apply, hc, hc0, sub_zero, slabOp, if_neg (Nat.succ_ne_zero n)] at this
      exact this
  intro d hd
  obtain ⟨n, c, l, s, hn, hl, hs, rfl⟩ := full_surj hC hd
  rw [← pull_dof (emb_slab hC hn) x hl hs]
  exact key n hn _ (hC.slab.lt c l s hl hs)

theorem pAll_inj (hC : C.Ok) (hN : 1 ≤ C.D.N) (hfw : C.D.jumpsFw = false)
    (h1 : (slabMatOf C C.D.wellPosed).TrivialKernel) (h2 : (slabMatOf C true).TrivialKernel) {x y : Vec}
    (h : ∀ d < C.full.size, pAll C x d = pAll C y d) : ∀ d < C.full.size, x d = y d := by
  have e : x = (x + (-1 : ℝ) • y) + y := by funext d; simp
  have k := pAll_kernel hC hN hfw h1 h2 (x := x + (-1 : ℝ) • y) fun d hd => by
    rw [pAll_add, pAll_smul, h d hd]; ring
  intro d hd
  have := k d hd
  simp at this
  linarith

/-! ### rows of the lower traces -/

theorem lowerIx_lt (hC : C.Ok) (c : Fin 4) (hc : c = 0 ∨ c = 1) {n : ℕ} (h0 : 0 < n) (hn : n < C.D.N) :
    n * (C.D.q + 1) - 1 < C.full.nsub c := by
  rw [hC.fullN, fullSizes_eq]
  have ht : C.D.timeOrder c = C.D.q := by rcases hc with rfl | rfl <;> rfl
  rw [ht, mul_comm (C.D.q + 1)]
  have : n * (C.D.q + 1) ≤ C.D.N * (C.D.q + 1) := Nat.mul_le_mul_right _ hn.le
  have : 0 < n * (C.D.q + 1) := Nat.mul_pos h0 (Nat.succ_pos _)
  omega

theorem lowerIx_cast {n q : ℕ} (h0 : 0 < n) : ((n * (q + 1) - 1 : ℕ) : ℤ) = n * (q + 1) - 1 := by
  have : 0 < n * (q + 1) := Nat.mul_pos h0 (Nat.succ_pos _)
  push_cast [Nat.cast_sub this]; ring

/-- The lower trace of a test function. -/
theorem field_lower (hC : C.Ok) (x : Vec) (c : Fin 4) (hc : c = 0 ∨ c = 1) {n : ℕ} (h0 : 0 < n) (hn : n < C.D.N) :
    C.full.field C.fe x c (n * (C.D.q + 1) - 1)
      = ∑ s ∈ range (C.fe.m c), x (C.full.dof c (n * (C.D.q + 1) - 1) s) • C.fe.basis c s := by
  have hl := lowerIx_lt hC c hc h0 hn
  rw [← lowerIx_cast h0, FSpace.field, if_pos ⟨by positivity, by exact_mod_cast hl⟩, Int.toNat_natCast]

/-- The rows in which the two operators differ. -/
def IsLower (C : Cfg V) (d : ℕ) : Prop :=
  ∃ c : Fin 4, (c = 0 ∨ c = 1) ∧ ∃ n s, 0 < n ∧ n < C.D.N ∧ s < C.fe.m c ∧ C.full.dof c (n * (C.D.q + 1) - 1) s = d

theorem lowerTerms_zero (hC : C.Ok) (U : Field V) {d : ℕ} (hd : ¬ IsLower C d) :
    lowerTerms C.S C.D U (C.full.field C.fe (unitVec d)) = 0 := by
  refine sum_eq_zero fun n hn => ?_
  split
  · rfl
  rename_i h0
  have hn := mem_range.1 hn
  have z : ∀ c : Fin 4, (c = 0 ∨ c = 1) → C.full.field C.fe (unitVec d) c (n * (C.D.q + 1) - 1) = 0 := by
    intro c hc
    rw [field_lower hC _ c hc (Nat.pos_of_ne_zero h0) hn]
    refine sum_eq_zero fun s hs => ?_
    have : C.full.dof c (n * (C.D.q + 1) - 1) s ≠ d := fun e =>
      hd ⟨c, hc, n, s, Nat.pos_of_ne_zero h0, hn, mem_range.1 hs, e⟩
    simp [unitVec, this]
  rw [z 0 (.inl rfl), z 1 (.inr rfl)]
  simp [lowerAt, Spec.jumpForm]

theorem lowerTerms_dof (hC : C.Ok) (U : Field V) (c : Fin 4) (hc : c = 0 ∨ c = 1) {n s : ℕ} (h0 : 0 < n)
    (hn : n < C.D.N) (hs : s < C.fe.m c) :
    lowerTerms C.S C.D U (C.full.field C.fe (unitVec (C.full.dof c (n * (C.D.q + 1) - 1) s)))
      = lowerAt C.S C.D U n (if c = 0 then C.fe.basis 0 s else 0) (if c = 1 then C.fe.basis 1 s else 0) := by
  have f : ∀ c' : Fin 4, (c' = 0 ∨ c' = 1) → ∀ k, 0 < k → k < C.D.N →
      C.full.field C.fe (unitVec (C.full.dof c (n * (C.D.q + 1) - 1) s)) c' (k * (C.D.q + 1) - 1)
        = if k = n then (if c = c' then C.fe.basis c' s else 0) else 0 := by
    intro c' hc' k hk hkN
    rw [field_lower hC _ c' hc' hk hkN]
    have inj : ∀ s' < C.fe.m c', C.full.dof c' (k * (C.D.q + 1) - 1) s' = C.full.dof c (n * (C.D.q + 1) - 1) s →
        c' = c ∧ k = n ∧ s' = s := by
      intro s' hs' e
      obtain ⟨e1, e2, e3⟩ := hC.full.inj _ _ _ _ _ _ (lowerIx_lt hC c' hc' hk hkN) hs' (lowerIx_lt hC c hc h0 hn) hs e
      refine ⟨e1, ?_, e3⟩
      have p1 : 0 < k * (C.D.q + 1) := Nat.mul_pos hk (Nat.succ_pos _)
      have p2 : 0 < n * (C.D.q + 1) := Nat.mul_pos h0 (Nat.succ_pos _)
      have e4 : k * (C.D.q + 1) = n * (C.D.q + 1) := by omega
      exact Nat.eq_of_mul_eq_mul_right (Nat.succ_pos C.D.q) e4
    by_cases hkn : k = n
    · subst hkn
      rw [if_pos rfl]
      by_cases hcc : c = c'
      · subst hcc
        rw [if_pos rfl, sum_eq_single s]
        · simp [unitVec]
        · intro s' hs' hne
          rw [unitVec, if_neg fun e => hne (inj s' (mem_range.1 hs') e).2.2, zero_smul]
        · intro h; exact absurd (mem_range.2 hs) h
      · rw [if_neg hcc]
        refine sum_eq_zero fun s' hs' => ?_
        rw [unitVec, if_neg fun e => hcc (inj s' (mem_range.1 hs') e).1.symm, zero_smul]
    · rw [if_neg hkn]
      refine sum_eq_zero fun s' hs' => ?_
      rw [unitVec, if_neg fun e => hkn (inj s' (mem_range.1 hs') e).2.1, zero_smul]
  rw [lowerTerms, sum_eq_single n]
  · rw [if_neg (by omega), f 0 (.inl rfl) n h0 hn, f 1 (.inr rfl) n h0 hn, if_pos rfl, if_pos rfl]
  · intro k hk hkn
    split
    · rfl
    · rename_i hk0
      rw [f 0 (.inl rfl) k (by omega) (mem_range.1 hk), f 1 (.inr rfl) k (by omega) (mem_range.1 hk), if_neg hkn,
        if_neg hkn]
      simp [lowerAt, Spec.jumpForm]
  · intro h; exact absurd (mem_range.2 hn) h

/-! ### the number of these rows -/

/-- Vectors of the rows of the lower traces. -/
noncomputable def lowerUnits (C : Cfg V) : Finset (Fin C.full.size → ℝ) :=
  ((range (C.D.N - 1) ×ˢ range (C.fe.m 0)).image fun p i => if i.1 = C.full.dof 0 ((p.1 + 1) * (C.D.q + 1) - 1) p.2 then 1 else 0)
  ∪ ((range (C.D.N - 1) ×ˢ range (C.fe.m 1)).image fun p i => if i.1 = C.full.dof 1 ((p.1 + 1) * (C.D.q + 1) - 1) p.2 then 1 else 0)

theorem lowerUnits_card (C : Cfg V) : (lowerUnits C).card ≤ (C.D.N - 1) * (C.fe.m 0 + C.fe.m 1) := by
  refine (card_union_le _ _).trans ?_
  rw [mul_add]
  refine add_le_add ?_ ?_ <;> refine card_image_le.trans ?_ <;> simp

theorem mem_lowerUnits {y : Fin C.full.size → ℝ} (h : ∀ d : Fin C.full.size, ¬ IsLower C d → y d = 0) :
    y ∈ Submodule.span ℝ (lowerUnits C : Set (Fin C.full.size → ℝ)) := by
  have e : y = ∑ d : Fin C.full.size, y d • fun i : Fin C.full.size => if i.1 = d.1 then (1 : ℝ) else 0 := by
    funext i
    rw [Finset.sum_apply, sum_eq_single i]
    · simp
    · intro b _ hb
      have : i.1 ≠ b.1 := fun h => hb (Fin.ext h.symm)
      simp [this]
    · simp
  rw [e]
  refine Submodule.sum_mem _ fun d _ => ?_
  by_cases hd : IsLower C d
  · refine Submodule.smul_mem _ _ (Submodule.subset_span ?_)
    obtain ⟨c, hc, n, s, h0, hn, hs, e⟩ := hd
    have hn1 : n - 1 + 1 = n := by omega
    rw [← e]
    simp only [lowerUnits, coe_union, Set.mem_union, coe_image, Set.mem_image, coe_product, Set.mem_prod, coe_range,
      Set.mem_Iio]
    rcases hc with rfl | rfl
    · exact .inl ⟨(n - 1, s), ⟨by simp; omega, hs⟩, by simp only [hn1]⟩
    · exact .inr ⟨(n - 1, s), ⟨by simp; omega, hs⟩, by simp only [hn1]⟩
  · rw [h d hd, zero_smul]
    exact Submodule.zero_mem _

end Dxss
