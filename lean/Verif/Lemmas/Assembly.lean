import Verif.Model.Assembly
import Verif.Lemmas.Forms
import Mathlib.Algebra.BigOperators.Fin
import Mathlib.Algebra.BigOperators.Pi

/-! # Assembled matrices as forms; transfer of blocks between spaces -/

namespace Dxss
open Finset
variable {V : Type} [AddCommGroup V] [Module ℝ V]

section field
variable (L : FSpace) (fe : FE V)

theorem field_add (x y : Vec) : L.field fe (x + y) = L.field fe x + L.field fe y := by
  funext c i
  simp only [FSpace.field, Pi.add_apply]
  split
  · simp [add_smul, sum_add_distrib]
  · simp
theorem field_smul (a : ℝ) (x : Vec) : L.field fe (a • x) = a • L.field fe x := by
  funext c i
  simp only [FSpace.field, Pi.smul_apply]
  split
  · simp [mul_smul, smul_sum]
  · simp

noncomputable def fieldLin : Vec →ₗ[ℝ] Field V where
  toFun := L.field fe
  map_add' := field_add L fe
  map_smul' := field_smul L fe

theorem field_zero : L.field fe 0 = 0 := (fieldLin L fe).map_zero
theorem field_sum {ι : Type*} (s : Finset ι) (f : ι → Vec) :
    L.field fe (∑ i ∈ s, f i) = ∑ i ∈ s, L.field fe (f i) := map_sum (fieldLin L fe) f s

theorem field_congr (hL : L.Ok fe.m) {x y : Vec} (h : ∀ d < L.size, x d = y d) :
    L.field fe x = L.field fe y := by
  funext c i
  simp only [FSpace.field]
  split
  · rename_i hi
    refine sum_congr rfl fun s hs => ?_
    rw [h _ (hL.lt c i.toNat s (by omega) (mem_range.1 hs))]
  · rfl

theorem vec_eq_sum_unit (n : ℕ) (x : Vec) {d : ℕ} (hd : d < n) :
    x d = (∑ d' ∈ range n, x d' • unitVec d') d := by
  rw [Finset.sum_apply, sum_eq_single d]
  · simp [unitVec]
  · intro b _ hb; simp [unitVec, hb.symm]
  · intro h; exact absurd (mem_range.2 hd) h

theorem field_eq_sum (hL : L.Ok fe.m) (x : Vec) :
    L.field fe x = ∑ d ∈ range L.size, x d • L.field fe (unitVec d) := by
  rw [field_congr L fe hL (fun d hd => vec_eq_sum_unit L.size x hd), field_sum]
  exact sum_congr rfl fun d _ => field_smul _ _ _ _
end field

section forms
variable (S : Space V) (ind : V) (F : List Term)

theorem evalForm_sum_left {ι : Type*} (s : Finset ι) (f : ι → Field V) (W : Field V) :
    evalForm S ind F (∑ i ∈ s, f i) W = ∑ i ∈ s, evalForm S ind F (f i) W := by
  have : formBilin S ind F (∑ i ∈ s, f i) W = ∑ i ∈ s, formBilin S ind F (f i) W := by
    rw [map_sum, LinearMap.sum_apply]
  exact this
theorem evalForm_sum_right {ι : Type*} (s : Finset ι) (f : ι → Field V) (U : Field V) :
    evalForm S ind F U (∑ i ∈ s, f i) = ∑ i ∈ s, evalForm S ind F U (f i) :=
  map_sum (formBilin S ind F U) f s
theorem evalForm_zero_left (W : Field V) : evalForm S ind F 0 W = 0 := by
  simpa using evalForm_smul_left S ind F 0 0 W
theorem evalForm_zero_right (U : Field V) : evalForm S ind F U 0 = 0 := by
  simpa using evalForm_smul_right S ind F 0 U 0

theorem evalLin_sum (G : List (LTerm V)) {ι : Type*} (s : Finset ι) (f : ι → Field V) :
    evalLin S ind G (∑ i ∈ s, f i) = ∑ i ∈ s, evalLin S ind G (f i) := by
  have : (⟨⟨evalLin S ind G, evalLin_add S ind G⟩, evalLin_smul S ind G⟩ : Field V →ₗ[ℝ] ℝ)
    (∑ i ∈ s, f i) = _ := map_sum _ f s
  exact this

variable (fe : FE V) (L : FSpace)

/-- The matrix-vector product with an assembled matrix evaluates the form. -/
theorem assemble_mult (hL : L.Ok fe.m) (x : Vec) {d : ℕ} (hd : d < L.size) :
    (assemble S ind fe L F).mult x d
      = evalForm S ind F (L.field fe x) (L.field fe (unitVec d)) := by
  simp only [Mat.mult, assemble, hd, if_true]
  rw [field_eq_sum L fe hL x, evalForm_sum_left]
  exact sum_congr rfl fun d' _ => by rw [evalForm_smul_left, mul_comm]

theorem assemble_mult_ge (x : Vec) {d : ℕ} (hd : ¬ d < L.size) :
    (assemble S ind fe L F).mult x d = 0 := by
  simp [Mat.mult, assemble, hd]

/-- Pairing with a test vector. -/
theorem assemble_pair (hL : L.Ok fe.m) (x w : Vec) :
    ∑ d ∈ range L.size, (assemble S ind fe L F).mult x d * w d
      = evalForm S ind F (L.field fe x) (L.field fe w) := by
  rw [field_eq_sum L fe hL w, evalForm_sum_right]
  refine sum_congr rfl fun d hd => ?_
  rw [assemble_mult S ind F fe L hL x (mem_range.1 hd), evalForm_smul_right, mul_comm]
end forms

theorem Mat.mult_congr (A : Mat) {x y : Vec} (h : ∀ d < A.size, x d = y d) :
    A.mult x = A.mult y := by
  funext d
  exact sum_congr rfl fun d' hd' => by rw [h d' (mem_range.1 hd')]
theorem Mat.mult_add (A : Mat) (x y : Vec) : A.mult (x + y) = A.mult x + A.mult y := by
  funext d; simp [Mat.mult, mul_add, sum_add_distrib]
theorem Mat.mult_smul (A : Mat) (a : ℝ) (x : Vec) : A.mult (a • x) = a • A.mult x := by
  funext d; simp only [Mat.mult, Pi.smul_apply, smul_eq_mul, mul_sum]
  exact sum_congr rfl fun _ _ => by ring
theorem Mat.mult_zero (A : Mat) : A.mult 0 = 0 := by
  simpa using A.mult_smul 0 0

/-! ### blocks -/

/-- The sub-components of `small` are identified with sub-components `ix c ℓ` of `big`. -/
structure Emb (m : Fin 4 → ℕ) (A B : FSpace) (ix : Fin 4 → ℕ → ℕ) : Prop where
  big : A.Ok m
  small : B.Ok m
  range : ∀ c l, l < B.nsub c → ix c l < A.nsub c
  inj : ∀ c l l', l < B.nsub c → l' < B.nsub c → ix c l = ix c l' → l = l'

/-- Sum over all (component, index, spatial dof) of a space. -/
def bsum {M : Type*} [AddCommMonoid M] (L : FSpace) (m : Fin 4 → ℕ) (f : Fin 4 → ℕ → ℕ → M) : M :=
  ∑ c, ∑ l ∈ range (L.nsub c), ∑ s ∈ range (m c), f c l s

theorem bsum_congr {M : Type*} [AddCommMonoid M] {L : FSpace} {m : Fin 4 → ℕ}
    {f g : Fin 4 → ℕ → ℕ → M} (h : ∀ c l s, l < L.nsub c → s < m c → f c l s = g c l s) :
    bsum L m f = bsum L m g :=
  sum_congr rfl fun c _ => sum_congr rfl fun l hl => sum_congr rfl fun s hs =>
    h c l s (mem_range.1 hl) (mem_range.1 hs)

theorem bsum_eq_single {M : Type*} [AddCommMonoid M] {L : FSpace} {m : Fin 4 → ℕ}
    {f : Fin 4 → ℕ → ℕ → M} {c₀ : Fin 4} {l₀ s₀ : ℕ} (hl : l₀ < L.nsub c₀) (hs : s₀ < m c₀)
    (h : ∀ c l s, l < L.nsub c → s < m c → ¬ (c = c₀ ∧ l = l₀ ∧ s = s₀) → f c l s = 0) :
    bsum L m f = f c₀ l₀ s₀ := by
  unfold bsum
  rw [sum_eq_single c₀, sum_eq_single l₀, sum_eq_single s₀]
  · intro s hs' hne; exact h _ _ _ hl (mem_range.1 hs') (by tauto)
  · intro hn; exact absurd (mem_range.2 hs) hn
  · intro l hl' hne
    exact sum_eq_zero fun s hs' => h _ _ _ (mem_range.1 hl') (mem_range.1 hs') (by tauto)
  · intro hn; exact absurd (mem_range.2 hl) hn
  · intro c _ hne
    exact sum_eq_zero fun l hl' => sum_eq_zero fun s hs' =>
      h _ _ _ (mem_range.1 hl') (mem_range.1 hs') (by tauto)
  · intro hn; exact absurd (mem_univ _) hn

theorem bsum_eq_zero {M : Type*} [AddCommMonoid M] {L : FSpace} {m : Fin 4 → ℕ}
    {f : Fin 4 → ℕ → ℕ → M} (h : ∀ c l s, l < L.nsub c → s < m c → f c l s = 0) :
    bsum L m f = 0 :=
  sum_eq_zero fun c _ => sum_eq_zero fun l hl => sum_eq_zero fun s hs =>
    h c l s (mem_range.1 hl) (mem_range.1 hs)

/-- Restriction of a `big` vector to the blocks of `small`. -/
def pull (m : Fin 4 → ℕ) (big small : FSpace) (ix : Fin 4 → ℕ → ℕ) (x : Vec) : Vec := fun e =>
  bsum small m fun c l s => if small.dof c l s = e then x (big.dof c (ix c l) s) else 0

/-- Extension of a `small` vector by zero. -/
def push (m : Fin 4 → ℕ) (big small : FSpace) (ix : Fin 4 → ℕ → ℕ) (v : Vec) : Vec := fun d =>
  bsum small m fun c l s => if big.dof c (ix c l) s = d then v (small.dof c l s) else 0

section emb
variable {m : Fin 4 → ℕ} {big small : FSpace} {ix : Fin 4 → ℕ → ℕ} (E : Emb m big small ix)
include E

theorem pull_dof (x : Vec) {c : Fin 4} {l s : ℕ} (hl : l < small.nsub c) (hs : s < m c) :
    pull m big small ix x (small.dof c l s) = x (big.dof c (ix c l) s) := by
  unfold pull
  rw [bsum_eq_single (f := fun c' l' s' => if small.dof c' l' s' = small.dof c l s then
    x (big.dof c' (ix c' l') s') else 0) hl hs]
  · simp
  · intro c' l' s' hl' hs' hne
    rw [if_neg]
    intro he; exact hne (E.small.inj _ _ _ _ _ _ hl' hs' hl hs he)

theorem pull_ge (x : Vec) {e : ℕ} (he : ¬ e < small.size) : pull m big small ix x e = 0 := by
  refine bsum_eq_zero fun c l s hl hs => if_neg fun h => he ?_
  rw [← h]; exact E.small.lt c l s hl hs

theorem push_dof (v : Vec) {c : Fin 4} {l s : ℕ} (hl : l < small.nsub c) (hs : s < m c) :
    push m big small ix v (big.dof c (ix c l) s) = v (small.dof c l s) := by
  unfold push
  rw [bsum_eq_single (f := fun c' l' s' => if big.dof c' (ix c' l') s' = big.dof c (ix c l) s then
    v (small.dof c' l' s') else 0) hl hs]
  · simp
  · intro c' l' s' hl' hs' hne
    rw [if_neg]
    intro he
    obtain ⟨rfl, h2, rfl⟩ := E.big.inj _ _ _ _ _ _ (E.range c' l' hl') hs' (E.range c l hl) hs he
    exact hne ⟨rfl, E.inj _ _ _ hl' hl h2, rfl⟩

theorem push_ge (v : Vec) {d : ℕ} (hd : ¬ d < big.size) : push m big small ix v d = 0 := by
  refine bsum_eq_zero fun c l s hl hs => if_neg fun h => hd ?_
  rw [← h]; exact E.big.lt c _ s (E.range c l hl) hs

/-- `push` vanishes on the blocks of `big` that are not hit. -/
theorem push_dof_other (v : Vec) {c : Fin 4} {i s : ℕ} (hi : i < big.nsub c) (hs : s < m c)
    (h : ∀ l < small.nsub c, ix c l ≠ i) : push m big small ix v (big.dof c i s) = 0 := by
  refine bsum_eq_zero fun c' l s' hl hs' => if_neg fun he => ?_
  obtain ⟨rfl, h2, rfl⟩ := E.big.inj _ _ _ _ _ _ (E.range c' l hl) hs' hi hs he
  exact h l hl h2

theorem push_congr {v v' : Vec} (h : ∀ e < small.size, v e = v' e) :
    push m big small ix v = push m big small ix v' := by
  funext d
  exact bsum_congr fun c l s hl hs => by rw [h _ (E.small.lt c l s hl hs)]

theorem pull_congr {x x' : Vec} (h : ∀ d < big.size, x d = x' d) :
    pull m big small ix x = pull m big small ix x' := by
  funext e
  exact bsum_congr fun c l s hl hs => by rw [h _ (E.big.lt c _ s (E.range c l hl) hs)]

end emb

theorem bsum_add {L : FSpace} {m : Fin 4 → ℕ} (f g : Fin 4 → ℕ → ℕ → ℝ) :
    bsum L m (fun c l s => f c l s + g c l s) = bsum L m f + bsum L m g := by
  simp [bsum, sum_add_distrib]
theorem bsum_mul {L : FSpace} {m : Fin 4 → ℕ} (a : ℝ) (f : Fin 4 → ℕ → ℕ → ℝ) :
    bsum L m (fun c l s => a * f c l s) = a * bsum L m f := by
  simp [bsum, mul_sum]

theorem pull_add (m : Fin 4 → ℕ) (big small : FSpace) (ix : Fin 4 → ℕ → ℕ) (x y : Vec) :
    pull m big small ix (x + y) = pull m big small ix x + pull m big small ix y := by
  funext e
  simp only [pull, Pi.add_apply, ← bsum_add]
  exact bsum_congr fun c l s _ _ => by split <;> simp
theorem pull_smul (m : Fin 4 → ℕ) (big small : FSpace) (ix : Fin 4 → ℕ → ℕ) (a : ℝ) (x : Vec) :
    pull m big small ix (a • x) = a • pull m big small ix x := by
  funext e
  simp only [pull, Pi.smul_apply, smul_eq_mul, ← bsum_mul]
  exact bsum_congr fun c l s _ _ => by split <;> simp
theorem push_add (m : Fin 4 → ℕ) (big small : FSpace) (ix : Fin 4 → ℕ → ℕ) (x y : Vec) :
    push m big small ix (x + y) = push m big small ix x + push m big small ix y := by
  funext e
  simp only [push, Pi.add_apply, ← bsum_add]
  exact bsum_congr fun c l s _ _ => by split <;> simp
theorem push_smul (m : Fin 4 → ℕ) (big small : FSpace) (ix : Fin 4 → ℕ → ℕ) (a : ℝ) (x : Vec) :
    push m big small ix (a • x) = a • push m big small ix x := by
  funext e
  simp only [push, Pi.smul_apply, smul_eq_mul, ← bsum_mul]
  exact bsum_congr fun c l s _ _ => by split <;> simp

/-- Restriction of a field to blocks. -/
def Field.sub (small : FSpace) (ix : Fin 4 → ℕ → ℕ) (U : Field V) : Field V := fun c i =>
  if 0 ≤ i ∧ i < small.nsub c then U c (ix c i.toNat) else 0

theorem field_pull {fe : FE V} {big small : FSpace} {ix : Fin 4 → ℕ → ℕ}
    (E : Emb fe.m big small ix) (x : Vec) :
    small.field fe (pull fe.m big small ix x) = Field.sub small ix (big.field fe x) := by
  funext c i
  simp only [FSpace.field, Field.sub]
  split
  · rename_i hi
    have hl : i.toNat < small.nsub c := by omega
    have := E.range c _ hl
    rw [if_pos (by omega)]
    refine sum_congr rfl fun s hs => ?_
    rw [pull_dof E x hl (mem_range.1 hs)]
    simp
  · rfl

theorem pull_unit (m : Fin 4 → ℕ) (big small : FSpace) (ix : Fin 4 → ℕ → ℕ) (d : ℕ) :
    pull m big small ix (unitVec d)
      = bsum small m fun c l s => (if big.dof c (ix c l) s = d then (1:ℝ) else 0)
          • unitVec (small.dof c l s) := by
  funext e
  simp only [pull, bsum, Finset.sum_apply, Pi.smul_apply, unitVec, smul_eq_mul]
  refine sum_congr rfl fun c _ => sum_congr rfl fun l _ => sum_congr rfl fun s _ => ?_
  by_cases h1 : small.dof c l s = e
  · simp [h1]
  · simp [h1, Ne.symm h1]

/-- Extending the product with an assembled small matrix evaluates the form on the restricted
test function: scatter is the transpose of gather. -/
theorem push_assemble (S : Space V) (ind : V) (F : List Term) {fe : FE V} {big small : FSpace}
    {ix : Fin 4 → ℕ → ℕ} (E : Emb fe.m big small ix) (z : Vec) (d : ℕ) :
    push fe.m big small ix ((assemble S ind fe small F).mult z) d
      = evalForm S ind F (small.field fe z) (small.field fe (pull fe.m big small ix (unitVec d))) := by
  rw [pull_unit]
  simp only [push, bsum, field_sum, evalForm_sum_right, field_smul, evalForm_smul_right]
  refine sum_congr rfl fun c _ => sum_congr rfl fun l hl => sum_congr rfl fun s hs => ?_
  rw [assemble_mult S ind F fe small E.small z
    (E.small.lt c l s (mem_range.1 hl) (mem_range.1 hs))]
  split <;> simp

end Dxss
