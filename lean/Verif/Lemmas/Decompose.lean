import Verif.Lemmas.MatrixFree
import Verif.Props.Indices

/-! # The space-time form as a sum of slab forms and interface forms -/

namespace Dxss
open Finset
set_option linter.unusedSectionVars false
variable {V : Type} [AddCommGroup V] [Module ℝ V]

theorem Operand.eval_congr {m : Fin 4 → ℕ} {o : Operand} (ho : OpWithin m o) {U U' : Field V}
    (h : ∀ c (i : ℤ), 0 ≤ i → i < m c → U c i = U' c i) : o.eval U = o.eval U' := by
  unfold Operand.eval
  congr 1
  exact List.map_congr_left fun a ha => by rw [h _ _ (ho a ha).1 (ho a ha).2]

theorem evalForm_congr {m : Fin 4 → ℕ} {F : List Term} (hF : FormWithin m F) (S : Space V) (ind : V)
    {U U' W W' : Field V} (hU : ∀ c (i : ℤ), 0 ≤ i → i < m c → U c i = U' c i)
    (hW : ∀ c (i : ℤ), 0 ≤ i → i < m c → W c i = W' c i) :
    evalForm S ind F U W = evalForm S ind F U' W' := by
  unfold evalForm
  congr 1
  refine List.map_congr_left fun t ht => ?_
  rw [Term.eval, Term.eval, Operand.eval_congr (hF t ht).1 hU, Operand.eval_congr (hF t ht).2 hW]

theorem evalLin_congr {m : Fin 4 → ℕ} {F : List (LTerm V)} (hF : LinWithin m F) (S : Space V) (ind : V)
    {W W' : Field V} (hW : ∀ c (i : ℤ), 0 ≤ i → i < m c → W c i = W' c i) :
    evalLin S ind F W = evalLin S ind F W' := by
  unfold evalLin
  congr 1
  refine List.map_congr_left fun t ht => ?_
  rw [LTerm.eval, LTerm.eval, Operand.eval_congr (hF t ht) hW]

/-- The field seen from slab `n`. -/
def Field.slab (D : Disc V) (n : ℕ) (U : Field V) : Field V := fun c i =>
  U c (n * (D.timeOrder c + 1) + i)
/-- The two traces at the bottom of slab `n`. -/
def Field.coup (D : Disc V) (n : ℕ) (U : Field V) : Field V := fun c i =>
  U c (n * (D.q + 1) - 1 + i)

variable (S : Space V) (D : Disc V) (ind : V) (U W : Field V) (n : ℕ)

theorem slabField_0 (i : ℤ) : Field.slab D n U 0 i = U 0 (n * (D.q + 1) + i) := rfl
theorem slabField_1 (i : ℤ) : Field.slab D n U 1 i = U 1 (n * (D.q + 1) + i) := rfl
theorem slabField_2 (i : ℤ) : Field.slab D n U 2 i = U 2 (n * (D.qstar + 1) + i) := rfl
theorem slabField_3 (i : ℤ) : Field.slab D n U 3 i = U 3 (n * (D.qstar + 1) + i) := rfl

/-- The loop nests of slab `n` shared by all variants. -/
noncomputable def Disc.core (c : Counters) : List Term :=
  D.stWave c ++ D.stData c ++ D.stAdj c ++ D.stDual c ++ D.stPrimal c

theorem evalForm_slabWave : evalForm S ind D.slabWave (Field.slab D n U) (Field.slab D n W)
    = evalForm S ind (D.stWave (ctr D.q D.qstar n)) U W := by
  rw [Disc.slabWave, Disc.stWave, evalForm_loop2, evalForm_loop2]
  refine sum_congr rfl fun j _ => sum_congr rfl fun k _ => ?_
  simp only [evalForm_append, evalForm_ite, evalForm_cons, evalForm_nil, Term.eval, eval_at,
    slabField_0, slabField_1, slabField_2, slabField_3, ctr]
theorem evalForm_slabAdj : evalForm S ind D.slabAdj (Field.slab D n U) (Field.slab D n W)
    = evalForm S ind (D.stAdj (ctr D.q D.qstar n)) U W := by
  rw [Disc.slabAdj, Disc.stAdj, evalForm_loop2, evalForm_loop2]
  refine sum_congr rfl fun j _ => sum_congr rfl fun k _ => ?_
  simp only [evalForm_append, evalForm_ite, evalForm_cons, evalForm_nil, Term.eval, eval_at,
    slabField_0, slabField_1, slabField_2, slabField_3, ctr]
theorem evalForm_slabData : evalForm S ind D.slabData (Field.slab D n U) (Field.slab D n W)
    = evalForm S ind (D.stData (ctr D.q D.qstar n)) U W := by
  rw [Disc.slabData, Disc.stData, evalForm_loop2, evalForm_loop2]
  refine sum_congr rfl fun j _ => sum_congr rfl fun k _ => ?_
  simp only [evalForm_cons, evalForm_nil, Term.eval, eval_at, slabField_0, ctr]
theorem evalForm_slabDual : evalForm S ind D.slabDual (Field.slab D n U) (Field.slab D n W)
    = evalForm S ind (D.stDual (ctr D.q D.qstar n)) U W := by
  rw [Disc.slabDual, Disc.stDual, evalForm_loop2, evalForm_loop2]
  refine sum_congr rfl fun j _ => sum_congr rfl fun k _ => ?_
  simp only [evalForm_cons, evalForm_nil, Term.eval, eval_at, slabField_2, slabField_3, ctr]
theorem evalForm_slabPrimal : evalForm S ind D.slabPrimal (Field.slab D n U) (Field.slab D n W)
    = evalForm S ind (D.stPrimal (ctr D.q D.qstar n)) U W := by
  rw [Disc.slabPrimal, Disc.stPrimal, evalForm_loop2, evalForm_loop2]
  refine sum_congr rfl fun j _ => sum_congr rfl fun k _ => ?_
  simp only [evalForm_cons, evalForm_nil, Term.eval, eval_at, slabField_0, slabField_1, ctr]

/-- The placeholder of the slab form on slab `n`. -/
noncomputable def slabPlaceholder : ℝ :=
  1e-20 * S.mass (U 0 (n * (D.q + 1))) (W 2 (n * (D.qstar + 1)))
/-- The placeholder of the coupling form at the bottom of slab `n`. -/
noncomputable def coupPlaceholder : ℝ :=
  1e-20 * S.mass (U 0 (n * (D.q + 1) - 1)) (W 0 (n * (D.q + 1) - 1))

theorem evalForm_slab_noJumps :
    evalForm S ind (D.slabForm false) (Field.slab D n U) (Field.slab D n W)
      = slabPlaceholder S D U W n + evalForm S ind (D.core (ctr D.q D.qstar n)) U W := by
  have e0 : ∀ b : Bool, (b && false) = false := by decide
  simp only [Disc.slabForm, Disc.core, evalForm_cons, evalForm_append, Disc.slabDualJump,
    Disc.slabJump, e0, Bool.false_eq_true, if_false, evalForm_nil, evalForm_slabWave,
    evalForm_slabAdj, evalForm_slabData, evalForm_slabDual, evalForm_slabPrimal]
  simp only [slabPlaceholder, Term.eval, eval_at, SOp.eval, slabField_0, slabField_2, add_zero]

/-- Interface energy of the lower traces of slab `n`, the slab form's jump terms. -/
noncomputable def bottomEnergy : ℝ := D.gJump * Spec.jumpForm S D.dt
  (U 0 (n * (D.q + 1))) (U 1 (n * (D.q + 1))) (W 0 (n * (D.q + 1))) (W 1 (n * (D.q + 1)))

theorem evalForm_slab_jumps (hfw : D.jumpsFw = false) :
    evalForm S ind (D.slabForm true) (Field.slab D n U) (Field.slab D n W)
      = slabPlaceholder S D U W n + evalForm S ind (D.core (ctr D.q D.qstar n)) U W
        + bottomEnergy S D U W n := by
  simp only [Disc.slabForm, Disc.core, evalForm_cons, evalForm_append, Disc.slabDualJump,
    Disc.slabJump, hfw, Bool.false_and, Bool.false_eq_true, if_false, if_true, evalForm_nil,
    evalForm_slabWave, evalForm_slabAdj, evalForm_slabData, evalForm_slabDual, evalForm_slabPrimal]
  simp only [slabPlaceholder, bottomEnergy, Spec.jumpForm, Term.eval, eval_at, SOp.eval, slabField_0,
    slabField_1, slabField_2, add_zero]
  ring

theorem evalForm_coup (h0 : 0 < n) :
    evalForm S ind D.couplingForm (Field.coup D n U) (Field.coup D n W)
      = coupPlaceholder S D U W n + evalForm S ind (D.stJump false (ctr D.q D.qstar n) n) U W := by
  have i1 : (ctr D.q D.qstar n).couplingQ + 1 = n * (D.q + 1) - 1 + 1 := rfl
  have i3 : (ctr D.q D.qstar n).couplingQ = n * (D.q + 1) - 1 := rfl
  simp only [Disc.couplingForm, Disc.stJump, h0, if_true, Bool.false_eq_true, if_false, i1]
  simp only [evalForm_cons, evalForm_nil, Term.eval, eval_at, eval_diff, Field.coup, i3,
    coupPlaceholder, SOp.eval, add_zero]

/-- The space-time form without forward jumps and initial terms, decomposed. -/
theorem stForm_decompose (precond : Bool) :
    evalForm S ind (D.stForm precond) U W
      = slabPlaceholder S D U W 0 + ∑ n ∈ range D.N,
        (evalForm S ind (D.core (ctr D.q D.qstar n)) U W
          + evalForm S ind (D.stInitial n) U W
          + (evalForm S ind (D.stDualJump (ctr D.q D.qstar n) n) U W
            + evalForm S ind (D.stFwJump (ctr D.q D.qstar n) n) U W)
          + evalForm S ind (D.stJump precond (ctr D.q D.qstar n) n) U W) := by
  rw [Disc.stForm, evalForm_cons, evalForm_slabLoop]
  congr 1
  · simp [Term.eval, slabPlaceholder, SOp.eval]
  · refine sum_congr rfl fun n _ => ?_
    simp only [Disc.stBody, Disc.core, evalForm_append]
    ring

variable {C : Cfg V}

theorem sub_slab_congr (hC : C.Ok) (U : Field V) (n : ℕ) (c : Fin 4) (i : ℤ) (h0 : 0 ≤ i)
    (h : i < slabSizes C.D.q C.D.qstar c) :
    Field.sub C.slab (slabIx C.D n) U c i = Field.slab C.D n U c i := by
  rw [Field.sub, if_pos ⟨h0, by rw [hC.slabN]; exact h⟩, Field.slab]
  congr 1
  simp only [slabIx]; push_cast; rw [Int.toNat_of_nonneg h0]

theorem sub_coup_congr (hC : C.Ok) (U : Field V) {n : ℕ} (hn : 0 < n) (c : Fin 4) (i : ℤ) (h0 : 0 ≤ i)
    (h : i < couplingSizes c) :
    Field.sub C.coup (coupIx C.D n) U c i = Field.coup C.D n U c i := by
  rw [Field.sub, if_pos ⟨h0, by rw [hC.coupN]; exact h⟩, Field.coup]
  congr 1
  have h1 : 1 ≤ n * (C.D.q + 1) := Nat.mul_pos hn (Nat.succ_pos _)
  simp only [coupIx]; push_cast [Nat.cast_sub h1]; rw [Int.toNat_of_nonneg h0]

end Dxss
