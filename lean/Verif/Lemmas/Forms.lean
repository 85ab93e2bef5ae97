import Verif.Model.Forms
import Mathlib.Algebra.BigOperators.Group.Finset.Basic
import Mathlib.Algebra.Module.BigOperators
import Mathlib.Tactic.Ring
import Mathlib.Tactic.Linarith

/-! # Evaluation lemmas for term lists -/

namespace Dxss
open Finset
variable {V : Type} [AddCommGroup V] [Module ℝ V]

theorem sum_map_range {M : Type*} [AddCommMonoid M] (n : ℕ) (f : ℕ → M) :
    ((List.range n).map f).sum = ∑ i ∈ range n, f i := by
  induction n with
  | zero => simp
  | succ n ih => simp [List.range_succ, sum_range_succ, ih]

theorem sum_flatMap_range {α : Type*} {M : Type*} [AddCommMonoid M] (n : ℕ) (f : ℕ → List α)
    (g : α → M) :
    (((List.range n).flatMap f).map g).sum = ∑ i ∈ range n, ((f i).map g).sum := by
  induction n with
  | zero => simp
  | succ n ih => simp [List.range_succ, sum_range_succ, ih, List.flatMap_append]

section
variable (S : Space V) (ind : V) (U W : Field V)

@[simp] theorem evalForm_nil : evalForm S ind [] U W = 0 := rfl
@[simp] theorem evalForm_cons (t : Term) (F : List Term) :
    evalForm S ind (t :: F) U W = t.eval S ind U W + evalForm S ind F U W := rfl
@[simp] theorem evalForm_append (F G : List Term) :
    evalForm S ind (F ++ G) U W = evalForm S ind F U W + evalForm S ind G U W := by
  simp [evalForm]
theorem evalForm_ite (b : Prop) [Decidable b] (F G : List Term) :
    evalForm S ind (if b then F else G) U W
      = if b then evalForm S ind F U W else evalForm S ind G U W := by
  split <;> rfl
theorem evalForm_loop2 (n m : ℕ) (body : ℕ → ℕ → List Term) :
    evalForm S ind (loop2 n m body) U W
      = ∑ j ∈ range n, ∑ k ∈ range m, evalForm S ind (body j k) U W := by
  unfold evalForm loop2
  rw [sum_flatMap_range]
  exact sum_congr rfl fun j _ => sum_flatMap_range _ _ _

@[simp] theorem evalLin_nil : evalLin S ind [] W = 0 := rfl
@[simp] theorem evalLin_cons (t : LTerm V) (F : List (LTerm V)) :
    evalLin S ind (t :: F) W = t.eval S ind W + evalLin S ind F W := rfl
@[simp] theorem evalLin_append (F G : List (LTerm V)) :
    evalLin S ind (F ++ G) W = evalLin S ind F W + evalLin S ind G W := by
  simp [evalLin]

@[simp] theorem eval_at (c : Fin 4) (i : ℤ) : (at_ c i).eval U = U c i := by
  simp [at_, Operand.eval]
@[simp] theorem eval_diff (c : Fin 4) (i i' : ℤ) : (diff_ c i i').eval U = U c i - U c i' := by
  simp [diff_, Operand.eval, sub_eq_add_neg]
@[simp] theorem operand_eval_nil : Operand.eval U [] = 0 := rfl
@[simp] theorem operand_eval_cons (a : Atom) (o : Operand) :
    Operand.eval U (a :: o) = a.c • U a.comp a.idx + Operand.eval U o := rfl
end

/-! ### the running indices -/

/-- Values of the four running indices in iteration `n`. -/
def ctr (q qstar n : ℕ) : Counters :=
  ⟨n * (q + 1), n * (q + 1) - 1, n * (qstar + 1), n * (qstar + 1) - 1⟩

theorem foldl_counters {α : Type*} (q qstar N : ℕ) (body : Counters → ℕ → List α) :
    (List.range N).foldl (fun (st : Counters × List α) n =>
      (st.1.next q qstar, st.2 ++ body st.1 n)) (Counters.init, [])
      = (ctr q qstar N, (List.range N).flatMap fun n => body (ctr q qstar n) n) := by
  induction N with
  | zero => simp [ctr, Counters.init]
  | succ N ih =>
    rw [List.range_succ, List.foldl_append, ih]
    simp only [List.foldl_cons, List.foldl_nil, List.flatMap_append, List.flatMap_cons,
      List.flatMap_nil, List.append_nil, Prod.mk.injEq, and_true]
    simp only [ctr, Counters.next, Counters.mk.injEq]
    push_cast
    refine ⟨?_, ?_, ?_, ?_⟩ <;> ring

theorem slabLoop_eq {α : Type*} (q qstar N : ℕ) (body : Counters → ℕ → List α) :
    slabLoop q qstar N body = (List.range N).flatMap fun n => body (ctr q qstar n) n := by
  unfold slabLoop; rw [foldl_counters]

theorem evalForm_slabLoop (S : Space V) (ind : V) (U W : Field V) (q qstar N : ℕ)
    (body : Counters → ℕ → List Term) :
    evalForm S ind (slabLoop q qstar N body) U W
      = ∑ n ∈ range N, evalForm S ind (body (ctr q qstar n) n) U W := by
  rw [slabLoop_eq]; exact sum_flatMap_range _ _ _

theorem evalLin_slabLoop (S : Space V) (ind : V) (W : Field V) (q qstar N : ℕ)
    (body : Counters → ℕ → List (LTerm V)) :
    evalLin S ind (slabLoop q qstar N body) W
      = ∑ n ∈ range N, evalLin S ind (body (ctr q qstar n) n) W := by
  rw [slabLoop_eq]; exact sum_flatMap_range _ _ _

/-! ### the spatial operators are bilinear -/

theorem SOp.eval_add_left (S : Space V) (ind : V) (o : SOp) (u u' w : V) :
    o.eval S ind (u + u') w = o.eval S ind u w + o.eval S ind u' w := by
  cases o <;> simp [SOp.eval]
theorem SOp.eval_smul_left (S : Space V) (ind : V) (o : SOp) (c : ℝ) (u w : V) :
    o.eval S ind (c • u) w = c * o.eval S ind u w := by
  cases o <;> simp [SOp.eval]
theorem SOp.eval_add_right (S : Space V) (ind : V) (o : SOp) (u w w' : V) :
    o.eval S ind u (w + w') = o.eval S ind u w + o.eval S ind u w' := by
  cases o <;> simp [SOp.eval]
theorem SOp.eval_smul_right (S : Space V) (ind : V) (o : SOp) (c : ℝ) (u w : V) :
    o.eval S ind u (c • w) = c * o.eval S ind u w := by
  cases o <;> simp [SOp.eval]

theorem Operand.eval_add (o : Operand) (F G : Field V) :
    o.eval (F + G) = o.eval F + o.eval G := by
  induction o with
  | nil => simp
  | cons a o ih => simp only [operand_eval_cons, ih, Pi.add_apply, smul_add]; abel
theorem Operand.eval_smul (o : Operand) (c : ℝ) (F : Field V) :
    o.eval (c • F) = c • o.eval F := by
  induction o with
  | nil => simp
  | cons a o ih =>
    simp only [operand_eval_cons, ih, Pi.smul_apply, smul_add, smul_comm c]

section bilinear
variable (S : Space V) (ind : V) (F : List Term)

theorem evalForm_add_left (U U' W : Field V) :
    evalForm S ind F (U + U') W = evalForm S ind F U W + evalForm S ind F U' W := by
  induction F with
  | nil => simp
  | cons t F ih =>
    simp only [evalForm_cons, ih, Term.eval, Operand.eval_add, SOp.eval_add_left]; ring
theorem evalForm_smul_left (c : ℝ) (U W : Field V) :
    evalForm S ind F (c • U) W = c * evalForm S ind F U W := by
  induction F with
  | nil => simp
  | cons t F ih =>
    simp only [evalForm_cons, ih, Term.eval, Operand.eval_smul, SOp.eval_smul_left]; ring
theorem evalForm_add_right (U W W' : Field V) :
    evalForm S ind F U (W + W') = evalForm S ind F U W + evalForm S ind F U W' := by
  induction F with
  | nil => simp
  | cons t F ih =>
    simp only [evalForm_cons, ih, Term.eval, Operand.eval_add, SOp.eval_add_right]; ring
theorem evalForm_smul_right (c : ℝ) (U W : Field V) :
    evalForm S ind F U (c • W) = c * evalForm S ind F U W := by
  induction F with
  | nil => simp
  | cons t F ih =>
    simp only [evalForm_cons, ih, Term.eval, Operand.eval_smul, SOp.eval_smul_right]; ring

theorem evalLin_add (L : List (LTerm V)) (W W' : Field V) :
    evalLin S ind L (W + W') = evalLin S ind L W + evalLin S ind L W' := by
  induction L with
  | nil => simp
  | cons t F ih =>
    simp only [evalLin_cons, ih, LTerm.eval, Operand.eval_add, SOp.eval_add_right]; ring
theorem evalLin_smul (L : List (LTerm V)) (c : ℝ) (W : Field V) :
    evalLin S ind L (c • W) = c * evalLin S ind L W := by
  induction L with
  | nil => simp
  | cons t F ih =>
    simp only [evalLin_cons, ih, LTerm.eval, Operand.eval_smul, SOp.eval_smul_right]; ring
end bilinear

/-- the form as a bilinear map -/
noncomputable def formBilin (S : Space V) (ind : V) (F : List Term) :
    Field V →ₗ[ℝ] Field V →ₗ[ℝ] ℝ :=
  LinearMap.mk₂ ℝ (evalForm S ind F) (evalForm_add_left S ind F)
    (fun c U W => evalForm_smul_left S ind F c U W) (evalForm_add_right S ind F)
    (fun c U W => evalForm_smul_right S ind F c U W)

end Dxss
