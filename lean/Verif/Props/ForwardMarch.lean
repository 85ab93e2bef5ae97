import Verif.Props.PublicApi
import Verif.Props.Solvable

/-!
# Property C91: `pre_time_marching` with forward jumps

`pre_time_marching_improved` refuses `jumps_in_fw_problem=True` (C25); `pre_time_marching` accepts it.  The system it solves is
not the one of `get_spacetime_matrix(precond=True)`: the adjoint interface terms are missing.
-/

namespace Dxss
open Finset
set_option linter.unusedSectionVars false
variable {V : Type} [AddCommGroup V] [Module ℝ V] {C : Cfg V}

/-! ### The slab matrices and loads with forward jumps -/

/-- Forward-jump terms of the slab matrix at the bottom of slab `n`. -/
noncomputable def fwBottom (S : Space V) (D : Disc V) (U W : Field V) (n : ℕ) : ℝ :=
  if D.jumpsFw then
    (1 + D.eps) * (S.mass (U 1 (n * (D.q + 1))) (W 2 (n * (D.qstar + 1))) + S.mass (U 0 (n * (D.q + 1))) (W 3 (n * (D.qstar + 1))))
      - D.gDual * D.dt * (S.mass (U 2 (n * (D.qstar + 1))) (W 2 (n * (D.qstar + 1)))
        + S.mass (U 3 (n * (D.qstar + 1))) (W 3 (n * (D.qstar + 1))))
  else 0

theorem evalForm_slab_true (S : Space V) (D : Disc V) (ind : V) (U W : Field V) (n : ℕ) :
    evalForm S ind (D.slabForm true) (Field.slab D n U) (Field.slab D n W)
      = slabPlaceholder S D U W n + evalForm S ind (D.core (ctr D.q D.qstar n)) U W
        + (bottomEnergy S D U W n + fwBottom S D U W n) := by
  cases hfw : D.jumpsFw
  · rw [evalForm_slab_jumps _ _ _ _ _ _ hfw, fwBottom, hfw]; simp
  · simp only [Disc.slabForm, Disc.core, evalForm_cons, evalForm_append, Disc.slabDualJump, fwBottom,
      Disc.slabJump, hfw, Bool.true_and, if_true, evalForm_nil,
      evalForm_slabWave, evalForm_slabAdj, evalForm_slabData, evalForm_slabDual, evalForm_slabPrimal]
    simp only [slabPlaceholder, bottomEnergy, Spec.jumpForm, Term.eval, eval_at, SOp.eval, slabField_0,
      slabField_1, slabField_2, slabField_3, add_zero]
    ring

theorem pushS_slab' (hC : C.Ok) (x : Vec) {n : ℕ} (hn : n < C.D.N) (d : ℕ) :
    let U := C.full.field C.fe x
    let W := C.full.field C.fe (unitVec d)
    pushS C n ((slabOp C n).mult (pullS C n x)) d
      = slabPlaceholder C.S C.D U W n + evalForm C.S C.D.ind (C.D.core (ctr C.D.q C.D.qstar n)) U W
        + if n = 0 ∧ C.D.wellPosed = false then 0 else bottomEnergy C.S C.D U W n + fwBottom C.S C.D U W n := by
  intro U W
  have key : ∀ j, pushS C n ((slabMatOf C j).mult (pullS C n x)) d
      = evalForm C.S C.D.ind (C.D.slabForm j) (Field.slab C.D n U) (Field.slab C.D n W) := by
    intro j
    unfold pushS pullS slabMatOf
    rw [push_assemble _ _ _ (emb_slab hC hn), field_pull (emb_slab hC hn), field_pull (emb_slab hC hn)]
    exact evalForm_congr (C11_slab_indices C.D j) _ _ (sub_slab_congr hC _ n) (sub_slab_congr hC _ n)
  unfold slabOp
  by_cases h0 : n = 0
  · rw [if_pos h0, key]
    cases hw : C.D.wellPosed
    · rw [if_pos ⟨h0, rfl⟩, evalForm_slab_noJumps, add_zero]
    · rw [if_neg (by simp), evalForm_slab_true]
  · rw [if_neg h0, key, if_neg (by tauto), evalForm_slab_true]

/-- What the first variant adds to the right-hand side of slab `n + 1` besides the carried energy: placeholder and forward jumps. -/
noncomputable def fwLoad (C : Cfg V) (u : Vec) : Vec := fun e =>
  if e < C.slab.size then
    (if C.D.jumpsFw then C.S.mass (C.slab.field C.fe u 1 C.D.q) (C.slab.field C.fe (unitVec e) 2 0)
      + C.S.mass (C.slab.field C.fe u 0 C.D.q) (C.slab.field C.fe (unitVec e) 3 0) else 0) else 0

theorem oldCarry_split (hC : C.Ok) (u : Vec) :
    oldCarry C u = placeholderLoad C + carry C u + fwLoad C u := by
  funext e
  rw [Pi.add_apply, Pi.add_apply, placeholderLoad, fwLoad]
  by_cases he : e < C.slab.size
  · rw [carry_apply hC, oldCarry, oldLoad, assembleVec, if_pos he, if_pos he, if_pos he]
    cases hfw : C.D.jumpsFw
    · simp [Disc.preLoad, hfw, evalLin, LTerm.eval, SOp.eval, Spec.jumpForm]
      ring
    · simp [Disc.preLoad, hfw, evalLin, LTerm.eval, SOp.eval, Spec.jumpForm]
      ring
  · rw [carry_ge hC _ he, oldCarry, oldLoad, assembleVec, if_neg he, if_neg he, if_neg he]; simp

/-- A vector which evaluates a linear function at the slab basis functions, moved to the full space. -/
theorem pushS_lin (hC : C.Ok) {n : ℕ} (hn : n < C.D.N) (f : V →ₗ[ℝ] ℝ) (c : Fin 4) (d : ℕ) :
    pushS C n (fun e => if e < C.slab.size then f (C.slab.field C.fe (unitVec e) c 0) else 0) d
      = f (C.full.field C.fe (unitVec d) c (n * (C.D.timeOrder c + 1) : ℤ)) := by
  have h1 : C.full.field C.fe (unitVec d) c (n * (C.D.timeOrder c + 1) : ℤ)
      = C.slab.field C.fe (pullS C n (unitVec d)) c 0 := by
    rw [pullS, field_pull (emb_slab hC hn), sub_slab_congr hC _ _ _ _ le_rfl, Field.slab, add_zero]
    rw [slabSizes_eq]; omega
  rw [h1, pullS, pull_unit, pushS, push, bsum, bsum]
  simp only [field_sum, field_smul, Finset.sum_apply, Pi.smul_apply, map_sum, map_smul, smul_eq_mul]
  refine sum_congr rfl fun c _ => sum_congr rfl fun l hl => sum_congr rfl fun s hs => ?_
  rw [if_pos (hC.slab.lt c l s (mem_range.1 hl) (mem_range.1 hs))]
  split <;> simp

theorem pushS_placeholder (hC : C.Ok) {n : ℕ} (hn : n < C.D.N) (d : ℕ) :
    pushS C n (placeholderLoad C) d
      = 1e-20 * C.S.mass C.S.one (C.full.field C.fe (unitVec d) 2 (n * (C.D.qstar + 1))) :=
  pushS_lin hC hn ((1e-20 : ℝ) • C.S.mass C.S.one) 2 d

theorem pushS_fwLoad (hC : C.Ok) (x : Vec) {n : ℕ} (hn : n + 1 < C.D.N) (d : ℕ) :
    let U := C.full.field C.fe x
    let W := C.full.field C.fe (unitVec d)
    pushS C (n + 1) (fwLoad C (pullS C n x)) d
      = if C.D.jumpsFw then C.S.mass (U 1 ((n + 1 : ℕ) * (C.D.q + 1) - 1)) (W 2 ((n + 1 : ℕ) * (C.D.qstar + 1)))
          + C.S.mass (U 0 ((n + 1 : ℕ) * (C.D.q + 1) - 1)) (W 3 ((n + 1 : ℕ) * (C.D.qstar + 1))) else 0 := by
  intro U W
  cases hfw : C.D.jumpsFw
  · have : fwLoad C (pullS C n x) = (0 : ℝ) • (0 : Vec) := by funext e; simp [fwLoad, hfw]
    rw [this, pushS, push_smul]; simp
  have ht : ∀ c : Fin 4, c = 0 ∨ c = 1 → C.slab.field C.fe (pullS C n x) c C.D.q = U c ((n + 1 : ℕ) * (C.D.q + 1) - 1) := by
    intro c hc
    have hq : (C.D.q : ℤ) < slabSizes C.D.q C.D.qstar c := by
      rw [slabSizes_eq, timeOrder_primal _ hc]; push_cast; omega
    rw [pullS, field_pull (emb_slab hC (by omega)), sub_slab_congr hC _ _ _ _ (by positivity) hq, Field.slab,
      timeOrder_primal _ hc]
    congr 1; push_cast; ring
  have h := fwLoad C (pullS C n x)
  have e : fwLoad C (pullS C n x)
      = (fun e => if e < C.slab.size then C.S.mass (C.slab.field C.fe (pullS C n x) 1 C.D.q) (C.slab.field C.fe (unitVec e) 2 0) else 0)
        + (fun e => if e < C.slab.size then C.S.mass (C.slab.field C.fe (pullS C n x) 0 C.D.q) (C.slab.field C.fe (unitVec e) 3 0) else 0) := by
    funext e
    simp only [fwLoad, hfw, if_true, Pi.add_apply]
    split <;> simp
  rw [e, pushS, push_add, Pi.add_apply]
  have p2 := pushS_lin hC hn (C.S.mass (C.slab.field C.fe (pullS C n x) 1 C.D.q)) 2 d
  have p3 := pushS_lin hC hn (C.S.mass (C.slab.field C.fe (pullS C n x) 0 C.D.q)) 3 d
  rw [pushS] at p2 p3
  rw [p2, p3, ht 0 (Or.inl rfl), ht 1 (Or.inr rfl)]
  rfl

/-! ### The system solved by the first variant -/

/-- Block `n` of the system solved by the first variant: slab matrix minus the load of this slab. -/
noncomputable def oldBlock (C : Cfg V) (x : Vec) : ℕ → Vec
  | 0 => (slabOp C 0).mult (pullS C 0 x) - placeholderLoad C
  | n + 1 => (slabOp C (n + 1)).mult (pullS C (n + 1) x) - oldCarry C (pullS C n x)

/-- What the first variant adds to the system of `get_spacetime_matrix(precond=True)` in slab `n`: with forward jumps, the
interface terms on the first slab if it has initial values, and on every other slab `eps` times the upper values tested with the
multipliers, minus the adjoint interface terms; and the placeholders. -/
noncomputable def Spec.marchDefect (S : Space V) (D : Disc V) (U W : Field V) (n : ℕ) : ℝ :=
  let b : ℤ := n * (D.q + 1);
  let bs : ℤ := n * (D.qstar + 1);
  -(1e-20 * S.mass S.one (W 2 bs)) +
  if n = 0 then
    if D.wellPosed && D.jumpsFw then
      (1 + D.eps) * (S.mass (U 1 0) (W 2 0) + S.mass (U 0 0) (W 3 0))
        - D.gDual * D.dt * (S.mass (U 2 0) (W 2 0) + S.mass (U 3 0) (W 3 0))
    else 0
  else 1e-20 * S.mass (U 0 b) (W 2 bs) +
    if D.jumpsFw then
      D.eps * (S.mass (U 1 (b - 1)) (W 2 bs) + S.mass (U 0 (b - 1)) (W 3 bs))
        - (1 + D.eps) * (S.mass (U 2 bs) (W 1 b - W 1 (b - 1)) + S.mass (U 3 bs) (W 0 b - W 0 (b - 1)))
    else 0

theorem oldOp_eq (hC : C.Ok) (hN : 1 ≤ C.D.N) (x : Vec) {d : ℕ} (hd : d < C.full.size) :
    (stMatOf C true).mult x d
        + ∑ n ∈ range C.D.N, Spec.marchDefect C.S C.D (C.full.field C.fe x) (C.full.field C.fe (unitVec d)) n
      = (∑ n ∈ range C.D.N, pushS C n (oldBlock C x n)) d := by
  set U := C.full.field C.fe x with hU
  set W := C.full.field C.fe (unitVec d) with hW
  rw [stMatOf, assemble_mult _ _ _ _ _ hC.full _ hd, stForm_decompose, ← hU, ← hW, Finset.sum_apply]
  obtain ⟨N', hN'⟩ : ∃ N', C.D.N = N' + 1 := ⟨C.D.N - 1, by omega⟩
  simp only [hN', sum_range_succ' _ N']
  have ei : evalForm C.S C.D.ind (C.D.stInitial 0) U W
      = if (0 = 0 ∧ C.D.wellPosed = false) then 0 else bottomEnergy C.S C.D U W 0 := by
    cases hw : C.D.wellPosed <;>
      simp [Disc.stInitial, hw, Term.eval, SOp.eval, Spec.jumpForm, bottomEnergy]
    ring
  have z1 : evalForm C.S C.D.ind (C.D.stDualJump (ctr C.D.q C.D.qstar 0) 0) U W = 0 := by
    simp [Disc.stDualJump]
  have z2 : evalForm C.S C.D.ind (C.D.stFwJump (ctr C.D.q C.D.qstar 0) 0) U W = 0 := by
    simp [Disc.stFwJump]
  have z3 : evalForm C.S C.D.ind (C.D.stJump true (ctr C.D.q C.D.qstar 0) 0) U W = 0 := by
    simp [Disc.stJump]
  have p0 := pushS_slab' hC x (n := 0) (by omega) d
  have p1 := pushS_placeholder hC (n := 0) (by omega) d
  simp only [← hU, ← hW] at p0 p1
  have c0 : pushS C 0 (oldBlock C x 0) d = slabPlaceholder C.S C.D U W 0
      + (evalForm C.S C.D.ind (C.D.core (ctr C.D.q C.D.qstar 0)) U W
      + evalForm C.S C.D.ind (C.D.stInitial 0) U W) + Spec.marchDefect C.S C.D U W 0 := by
    rw [oldBlock, pushS_sub, Pi.sub_apply, p0, p1, ei]
    cases hw : C.D.wellPosed <;> cases hfw : C.D.jumpsFw <;>
      simp [Spec.marchDefect, hw, hfw, fwBottom] <;> ring
  rw [c0, z1, z2, z3]
  have hs : ∀ n ∈ range N', pushS C (n + 1) (oldBlock C x (n + 1)) d
      = (evalForm C.S C.D.ind (C.D.core (ctr C.D.q C.D.qstar (n + 1))) U W
          + evalForm C.S C.D.ind (C.D.stInitial (n + 1)) U W
          + (evalForm C.S C.D.ind (C.D.stDualJump (ctr C.D.q C.D.qstar (n + 1)) (n + 1)) U W
            + evalForm C.S C.D.ind (C.D.stFwJump (ctr C.D.q C.D.qstar (n + 1)) (n + 1)) U W)
          + evalForm C.S C.D.ind (C.D.stJump true (ctr C.D.q C.D.qstar (n + 1)) (n + 1)) U W)
        + Spec.marchDefect C.S C.D U W (n + 1) := by
    intro n hn
    have hn := mem_range.1 hn
    have a1 : evalForm C.S C.D.ind (C.D.stInitial (n + 1)) U W = 0 := by simp [Disc.stInitial]
    have ps := pushS_slab' hC x (n := n + 1) (by omega) d
    have pf := pushS_fwLoad hC x (n := n) (by omega) d
    have pp := pushS_placeholder hC (n := n + 1) (by omega) d
    simp only [← hU, ← hW] at ps pf pp
    have i1 : (ctr C.D.q C.D.qstar (n + 1)).couplingQ + 1 = (n + 1 : ℕ) * (C.D.q + 1) := by simp [ctr]
    have i2 : (ctr C.D.q C.D.qstar (n + 1)).couplingQs + 1 = (n + 1 : ℕ) * (C.D.qstar + 1) := by simp [ctr]
    have i3 : (ctr C.D.q C.D.qstar (n + 1)).couplingQ = (n + 1 : ℕ) * (C.D.q + 1) - 1 := rfl
    rw [oldBlock, oldCarry_split hC, pushS_sub, Pi.sub_apply, ps]
    have sp : pushS C (n + 1) (placeholderLoad C + carry C (pullS C n x) + fwLoad C (pullS C n x)) d
        = pushS C (n + 1) (placeholderLoad C) d + pushS C (n + 1) (carry C (pullS C n x)) d
          + pushS C (n + 1) (fwLoad C (pullS C n x)) d := by
      simp only [pushS, push_add, Pi.add_apply]
    rw [sp, pushS_carry hC x (by omega) d, pf, pp, a1, evalForm_jump_true _ _ _ _ _ (show 0 < n + 1 by omega), if_neg (by omega),
      slabPlaceholder]
    rw [← hU, ← hW]
    cases hfw : C.D.jumpsFw
    · simp [Spec.marchDefect, hfw, fwBottom, Disc.stDualJump, Disc.stFwJump]; ring
    · simp only [Spec.marchDefect, hfw, fwBottom, Disc.stDualJump, Disc.stFwJump, Nat.succ_pos, decide_true, Bool.true_and,
        if_true, i1, i2, evalForm_cons, evalForm_nil, Term.eval, eval_at, eval_diff, i3, SOp.eval, Nat.succ_ne_zero, if_false,
        map_sub, LinearMap.sub_apply]
      ring
  rw [sum_congr rfl hs]
  simp only [sum_add_distrib]
  abel

theorem old_residual (hC : C.Ok) {fF fS : Vec → Py Vec}
    (hF : Solves fF (slabMatOf C C.D.wellPosed)) (hS : Solves fS (slabMatOf C true))
    {b x : Vec} (hb : ∀ n < C.D.N, ∃ u, march C (oldLoad C 0 0 0) (oldCarry C) fF fS b n = .ok u ∧ BlockEq C n x u)
    {n : ℕ} (hn : n < C.D.N) : ∀ e < C.slab.size, oldBlock C x n e = pullS C n b e := by
  intro e he
  obtain ⟨u, hu, hxu⟩ := hb n hn
  have h1 : (slabOp C n).mult (pullS C n x) = (slabOp C n).mult u :=
    slabOp_congr n fun e he => pullS_of_blockEq hC hn hxu he
  cases n with
  | zero =>
    rw [oldBlock, h1, slabOp, if_pos rfl, Pi.sub_apply]
    rw [march] at hu
    rw [hF _ _ hu e he, oldLoad_zero_eq]; simp
  | succ n =>
    obtain ⟨v, hv, hxv⟩ := hb n (by omega)
    have h2 : oldCarry C (pullS C n x) = oldCarry C v := by
      rw [oldCarry, oldCarry, field_congr _ _ hC.slab fun e he => pullS_of_blockEq hC (by omega) hxv he]
    rw [oldBlock, h1, h2, slabOp, if_neg (Nat.succ_ne_zero _), Pi.sub_apply]
    rw [march, hv] at hu
    rw [hS _ _ hu e he]; simp

theorem oldBlock_ge (y : Vec) (n : ℕ) {e : ℕ} (he : ¬ e < C.slab.size) : oldBlock C y n e = 0 := by
  cases n with
  | zero => rw [oldBlock, Pi.sub_apply, slabOp_ge _ _ he, placeholderLoad, if_neg he, sub_zero]
  | succ n =>
    rw [oldBlock, Pi.sub_apply, slabOp_ge _ _ he, oldCarry, oldLoad, assembleVec, if_neg he, sub_zero]

theorem old_recovers (hC : C.Ok) (hN : 1 ≤ C.D.N) (w : World V) {fF fS : Vec → Py Vec} (hw : SolReady C w.obj fF fS)
    (hF : LeftInverse fF (slabMatOf C C.D.wellPosed)) (hS : LeftInverse fS (slabMatOf C true))
    (b x : Ref) (hb : b ∉ oldScratch) (hx : x ∉ oldScratch) (y : Vec)
    (hy : ∀ d < C.full.size, w.heap b d = (stMatOf C true).mult y d
      + ∑ n ∈ range C.D.N, Spec.marchDefect C.S C.D (C.full.field C.fe y) (C.full.field C.fe (unitVec d)) n) :
    ∃ w', preTimeMarching C b x w = (.ok (), w') ∧ ∀ d < C.full.size, w'.heap x d = y d := by
  have hbd : ∀ d < C.full.size, w.heap b d = (∑ n ∈ range C.D.N, pushS C n (oldBlock C y n)) d := by
    intro d hd
    rw [hy d hd]
    exact oldOp_eq hC hN y hd
  have hpull : ∀ n < C.D.N, ∀ e, pullS C n (w.heap b) e = oldBlock C y n e := by
    intro n hn e
    rw [pullS_congr hC hbd hn]
    by_cases he : e < C.slab.size
    · exact pullS_sum hC _ hn he
    · rw [pullS_ge hC hn _ he, oldBlock_ge _ _ he]
  have key : ∀ n < C.D.N, ∃ u, march C (oldLoad C 0 0 0) (oldCarry C) fF fS (w.heap b) n = .ok u ∧
      ∀ e < C.slab.size, u e = pullS C n y e := by
    intro n
    induction n with
    | zero =>
      intro hn
      obtain ⟨u, hu, hu'⟩ := hF (pullS C 0 y)
      refine ⟨u, ?_, hu'⟩
      rw [march, ← hu]
      congr 1
      funext e
      rw [Pi.add_apply, hpull 0 hn e, oldBlock, slabOp, if_pos rfl, oldLoad_zero_eq]; simp
    | succ n ih =>
      intro hn
      obtain ⟨v, hv, hv'⟩ := ih (by omega)
      obtain ⟨u, hu, hu'⟩ := hS (pullS C (n + 1) y)
      refine ⟨u, ?_, hu'⟩
      rw [march, hv]
      simp only
      rw [← hu]
      congr 1
      have h2 : oldCarry C v = oldCarry C (pullS C n y) := by
        rw [oldCarry, oldCarry, field_congr _ _ hC.slab hv']
      funext e
      rw [Pi.add_apply, hpull (n + 1) hn e, oldBlock, slabOp, if_neg (Nat.succ_ne_zero n), h2]
      simp
  have h := preOld_run hC hw hb hx
  obtain ⟨-, -, -, -, h⟩ := h
  rcases hr : preTimeMarching C b x w with ⟨e | u, w'⟩
  · rw [hr] at h
    obtain ⟨n, hn, h1, -⟩ := h
    obtain ⟨u, hu, -⟩ := key n hn
    rw [hu] at h1; cases h1
  · rw [hr] at h
    refine ⟨w', rfl, fun d hd => ?_⟩
    obtain ⟨n, c, l, s, hn, hl, hs, rfl⟩ := full_surj hC hd
    obtain ⟨u, hu, hbe⟩ := h.1 n hn
    obtain ⟨v, hv, hv'⟩ := key n hn
    rw [hu] at hv; cases hv
    rw [hbe c l s hl hs, hv' _ (hC.slab.lt c l s hl hs)]
    exact pull_dof (emb_slab hC hn) y hl hs

/-! ## C91 -/

section
variable {w₀ : World V} {fF fS : Vec → Py Vec} {ops : List (Op V)}

/-- C91: the system solved by `pre_time_marching`, for every value of the flags.  After the documented calls with solvers of the
handed-out slab matrices, a call that returns gives `x` with `P x` plus the defect equal to `b`, where `P` is what
`get_spacetime_matrix(precond=True)` returns. -/
theorem C91_system_partial (hC : C.Ok) (hN : 1 ≤ C.D.N) (h₀ : w₀.Fresh) (hf : w₀.NoFail)
    (hs : SolversSet C ops fF fS) {A₁ A₂ P : Mat} (hA : C.ReturnsSlab A₁ A₂) (hF : Solves fF A₁)
    (hS : Solves fS A₂) (hP : C.Returns true P) (b : InVec) (x : ℕ) (w' : World V) :
    let w := runOps C (.setupFE :: .prepare :: ops) w₀
    runOp C (.pre b x) w = (.ok (), w') → ∀ d < P.size,
      P.mult (w'.heap (.user x)) d + (∑ n ∈ range C.D.N,
        Spec.marchDefect C.S C.D (C.full.field C.fe (w'.heap (.user x))) (C.full.field C.fe (unitVec d)) n) = w.heap b.ref d := by
  rw [hP.eq]
  rw [hA.eq.1] at hF
  rw [hA.eq.2] at hS
  intro w hrun d hd
  have h := preOld_run hC (documented_preReady h₀ hf hs).toSolReady b.notMem_old (show Ref.user x ∉ oldScratch by simp [oldScratch])
  change preTimeMarching C b.ref (.user x) w = _ at hrun
  rw [hrun] at h
  obtain ⟨-, -, -, -, h, -⟩ := h
  rw [oldOp_eq hC hN _ hd, ← sum_push_pull hC (w.heap b.ref) hd]
  obtain ⟨n, c, l, s, hn, hl, hs, rfl⟩ := full_surj hC hd
  rw [sum_pushS_dof hC _ hn hl hs, sum_pushS_dof hC _ hn hl hs]
  exact old_residual hC hF hS h hn _ (hC.slab.lt c l s hl hs)

/-- C91: the system of `C91_system_partial` determines the result: if the solvers recover `v` from `A₁ v` and `A₂ v`, the call
returns and gives back the vector `y` from which `b` was computed. -/
theorem C91_recovers (hC : C.Ok) (hN : 1 ≤ C.D.N) (h₀ : w₀.Fresh) (hf : w₀.NoFail)
    (hs : SolversSet C ops fF fS) {A₁ A₂ P : Mat} (hA : C.ReturnsSlab A₁ A₂) (hF : LeftInverse fF A₁)
    (hS : LeftInverse fS A₂) (hP : C.Returns true P) (b : InVec) (x : ℕ) (y : Vec) :
    let w := runOps C (.setupFE :: .prepare :: ops) w₀
    (∀ d < P.size, w.heap b.ref d = P.mult y d + ∑ n ∈ range C.D.N,
      Spec.marchDefect C.S C.D (C.full.field C.fe y) (C.full.field C.fe (unitVec d)) n) →
    ∃ w', runOp C (.pre b x) w = (.ok (), w') ∧ ∀ d < P.size, w'.heap (.user x) d = y d := by
  rw [hP.eq]
  rw [hA.eq.1] at hF
  rw [hA.eq.2] at hS
  intro w hy
  exact old_recovers hC hN w (documented_preReady h₀ hf hs).toSolReady hF hS b.ref (.user x) b.notMem_old (by simp [oldScratch]) y hy

end

/-- The full statement of C91: with forward jumps (and a positive order of the multipliers, for which the code sets `eps = 0`) the
first variant solves `P x = b` up to the placeholders, as without them. -/
def C91_statement (V : Type) [AddCommGroup V] [Module ℝ V] : Prop :=
  ∀ (C : Cfg V), C.Ok → 1 ≤ C.D.N → C.D.jumpsFw = true → C.D.eps = 0 → ∀ (w₀ : World V), w₀.Fresh → w₀.NoFail →
    ∀ (ops : List (Op V)) (fF fS : Vec → Py Vec), SolversSet C ops fF fS → ∀ A₁ A₂ P : Mat, C.ReturnsSlab A₁ A₂ →
    Solves fF A₁ → Solves fS A₂ → C.Returns true P → ∀ (b : InVec) (x : ℕ) (w' : World V),
    runOp C (.pre b x) (runOps C (.setupFE :: .prepare :: ops) w₀) = (.ok (), w') →
    ∀ d < P.size, P.mult (w'.heap (.user x)) d + (∑ n ∈ range C.D.N,
        Spec.marchDefect C.S { C.D with jumpsFw := false } (C.full.field C.fe (w'.heap (.user x))) (C.full.field C.fe (unitVec d)) n)
      = (runOps C (.setupFE :: .prepare :: ops) w₀).heap b.ref d

/-- The defect in the row of a velocity test function at the top of the first slab: the adjoint interface term. -/
theorem marchDefect_top (hC : C.Ok) (hN : 2 ≤ C.D.N) (hq : 1 ≤ C.D.q) (U : Field V) {s : ℕ} (hs : s < C.fe.mP) (fw : Bool) :
    ∑ n ∈ range C.D.N, Spec.marchDefect C.S { C.D with jumpsFw := fw } U
        (C.full.field C.fe (unitVec (C.full.dof 1 C.D.q s))) n
      = if fw then (1 + C.D.eps) * C.S.mass (U 2 (C.D.qstar + 1)) (C.fe.bP s) else 0 := by
  have hi : C.D.q < C.full.nsub 1 := by
    rw [hC.fullN]; simp [fullSizes]; nlinarith
  have hW := field_unit hC (c := 1) hi hs
  rw [sum_eq_single 1]
  · cases fw
    · simp [Spec.marchDefect, hW]
    · simp [Spec.marchDefect, hW, FE.basis]
  · intro n hn h1
    have e1 : ((n : ℤ) * (C.D.q + 1) = C.D.q) = False := by
      rw [eq_iff_iff, iff_false]
      rcases n with _ | n
      · simp; omega
      · push_cast; nlinarith
    have e2 : n ≠ 0 → ((n : ℤ) * (C.D.q + 1) - 1 = C.D.q) = False := by
      intro h0
      rw [eq_iff_iff, iff_false]
      have : (2 : ℤ) ≤ n := by omega
      nlinarith
    by_cases h0 : n = 0
    · subst h0; simp [Spec.marchDefect, hW]
    · simp [Spec.marchDefect, hW, e1, e2 h0, h0]
  · intro h; exact absurd (mem_range.2 (by omega)) h

section
variable {w₀ : World V} {fF fS : Vec → Py Vec} {ops : List (Op V)}

/-- C91: in the row of a velocity test function at the top of the first slab the computed vector misses `P x = b` by the multiplier
at the bottom of the second slab. -/
theorem C91_missing_row (hC : C.Ok) (hN : 2 ≤ C.D.N) (hq : 1 ≤ C.D.q) (hfw : C.D.jumpsFw = true) (h₀ : w₀.Fresh) (hf : w₀.NoFail)
    (hs : SolversSet C ops fF fS) {A₁ A₂ P : Mat} (hA : C.ReturnsSlab A₁ A₂) (hF : Solves fF A₁)
    (hS : Solves fS A₂) (hP : C.Returns true P) (b : InVec) (x : ℕ) (w' : World V) :
    let w := runOps C (.setupFE :: .prepare :: ops) w₀
    runOp C (.pre b x) w = (.ok (), w') → ∀ s < C.fe.mP,
      P.mult (w'.heap (.user x)) (C.full.dof 1 C.D.q s)
        + (1 + C.D.eps) * C.S.mass (C.full.field C.fe (w'.heap (.user x)) 2 (C.D.qstar + 1)) (C.fe.bP s)
      = w.heap b.ref (C.full.dof 1 C.D.q s) := by
  intro w hrun s hs'
  have hi : C.D.q < C.full.nsub 1 := by
    rw [hC.fullN]; simp [fullSizes]; nlinarith
  have h := C91_system_partial hC (by omega) h₀ hf hs hA hF hS hP b x w' hrun (C.full.dof 1 C.D.q s)
    (by rw [hP.eq]; exact hC.full.lt 1 _ s hi hs')
  have hD : C.D = { C.D with jumpsFw := true } := by rw [← hfw]
  rw [← h]
  congr 1
  conv_rhs => rw [hD]
  rw [marchDefect_top hC hN hq _ hs' true, if_pos rfl]

end

/-! ### The violation -/

theorem Mat.UniquelySolvable.solver {A : Mat} (h : A.UniquelySolvable) :
    ∃ f : Vec → Vec, Solves (fun r => .ok (f r)) A ∧ LeftInverse (fun r => .ok (f r)) A := by
  choose f hf using h
  exact ⟨f, fun r u h e he => by cases h; exact (hf r).1 e he, fun v => ⟨_, rfl, fun e he => ((hf _).2 v (fun _ _ => rfl) e he).symm⟩⟩

/-- C91: with forward jumps, two or more slabs and non-singular slab matrices, there is a right-hand side for which the first
variant returns a vector with `P x ≠ b`, in a row where no placeholder occurs. -/
theorem C91_fails (hC : C.Ok) (hN : 2 ≤ C.D.N) (hq : 1 ≤ C.D.q) (hfw : C.D.jumpsFw = true) {A₁ A₂ P : Mat} (hA : C.ReturnsSlab A₁ A₂)
    (hP : C.Returns true P) (u₁ : A₁.UniquelySolvable) (u₂ : A₂.UniquelySolvable) (heps : 1 + C.D.eps ≠ 0) (hD : 0 < C.fe.mD)
    {s : ℕ} (hs : s < C.fe.mP) (hm : C.S.mass (C.fe.bD 0) (C.fe.bP s) ≠ 0) :
    ∃ (w₀ : World V) (ops : List (Op V)) (fF fS : Vec → Py Vec) (w' : World V), w₀.Fresh ∧ w₀.NoFail ∧ SolversSet C ops fF fS ∧
      Solves fF A₁ ∧ Solves fS A₂ ∧ LeftInverse fF A₁ ∧ LeftInverse fS A₂ ∧
      runOp C (.pre (.user 0) 1) (runOps C (.setupFE :: .prepare :: ops) w₀) = (.ok (), w') ∧
      P.mult (w'.heap (.user 1)) (C.full.dof 1 C.D.q s)
        ≠ (runOps C (.setupFE :: .prepare :: ops) w₀).heap (.user 0) (C.full.dof 1 C.D.q s) := by
  obtain ⟨f, hF, hF'⟩ := u₁.solver
  obtain ⟨g, hG, hG'⟩ := u₂.solver
  have hz : C.D.qstar + 1 < C.full.nsub 2 := by
    rw [hC.fullN]; simp [fullSizes]; nlinarith
  set y : Vec := unitVec (C.full.dof 2 (C.D.qstar + 1) 0) with hy
  set bv : Vec := fun d => P.mult y d + ∑ n ∈ range C.D.N,
    Spec.marchDefect C.S C.D (C.full.field C.fe y) (C.full.field C.fe (unitVec d)) n with hbv
  set w₀ : World V := ⟨{}, fun _ => bv, fun _ => false, 0⟩ with hw₀
  set ops : List (Op V) := [.setSolverFirst (Example.solverOf fun r => .ok (f r)), .setSolverSlab (Example.solverOf fun r => .ok (g r))]
    with hops
  have h₀ : w₀.Fresh := rfl
  have hf : w₀.NoFail := fun _ _ => rfl
  have hset : SolversSet C ops (fun r => .ok (f r)) (fun r => .ok (g r)) :=
    ⟨⟨_, by simp [ops]; rfl⟩, ⟨_, by simp [ops]; rfl⟩, fun t ht => by simp [ops] at ht; subst ht; exact Example.solverOf_computes _ _,
      fun t ht => by simp [ops] at ht; subst ht; exact Example.solverOf_computes _ _⟩
  have hb : (runOps C (.setupFE :: .prepare :: ops) w₀).heap (.user 0) = bv :=
    C80_history _ (by simp [ops, Op.output]) _
  obtain ⟨w', hrun, hw'⟩ := C91_recovers hC (by omega) h₀ hf hset hA hF' hG' hP (.user 0) 1 y
    fun d _ => congrFun hb d
  refine ⟨w₀, ops, _, _, w', h₀, hf, hset, hF, hG, hF', hG', hrun, ?_⟩
  have h := C91_missing_row hC hN hq hfw h₀ hf hset hA hF hG hP (.user 0) 1 w' hrun s hs
  have e : C.full.field C.fe (w'.heap (.user 1)) = C.full.field C.fe y :=
    field_congr _ _ hC.full fun d hd => hw' d (by rw [hP.eq]; exact hd)
  have e2 : C.full.field C.fe y 2 (C.D.qstar + 1) = C.fe.bD 0 := by
    have := field_unit hC (c := 2) hz (s := 0) hD 2 (C.D.qstar + 1)
    simpa [FE.basis] using this
  rw [e, e2] at h
  intro h'
  rw [h'] at h
  have := mul_ne_zero heps hm
  change (runOps C (.setupFE :: .prepare :: ops) w₀).heap (.user 0) _ + _ = (runOps C (.setupFE :: .prepare :: ops) w₀).heap (.user 0) _ at h
  exact this (by linarith)

namespace Example
open Polynomial

theorem cfg_returnsSlab (fw wp : Bool) : ∃ A₁ A₂, (cfg fw wp).ReturnsSlab A₁ A₂ := by
  obtain ⟨A₁, A₂, w₁, w₂, h1, h2, -, -⟩ := C78_matrices_available (C := cfg fw wp) (freshWorld_fresh fun _ => 0)
    (freshWorld_noFail _) []
  exact ⟨A₁, A₂, ⟨_, _, w₁, freshWorld_fresh _, h1⟩, ⟨_, _, w₂, freshWorld_fresh _, h2⟩⟩

theorem cfg_returns (fw wp p : Bool) : (cfg fw wp).Returns p (stMatOf (cfg fw wp) p) := by
  obtain ⟨v₁, hP⟩ := getMatrix_ok (cfg fw wp) p fun _ => 0
  exact ⟨_, _, v₁, freshWorld_fresh _, by simp [Op.OtherFlag], hP⟩

/-- C91 does not hold of the code: with two slabs, linear elements and initial values. -/
theorem C91_violated : ¬ C91_statement (Polynomial ℝ) := by
  intro h
  have hC := cfg_ok true true
  obtain ⟨A₁, A₂, hA⟩ := cfg_returnsSlab true true
  have hP := cfg_returns true true true
  have hk : (slabMatOf (cfg true true) true).UniquelySolvable := Mat.uniquelySolvable_of_kernel
    (slabForm_kernel_fw hC.disc polySpace_psd polySpace_definite (disc_positive true true) (disc_fwDominated true true) rfl fe_indep
      hC.slab hC.slabN)
  have hm : polySpace.mass (fe.bD 0) (fe.bP 1) ≠ 0 := by simp [polySpace, fe, I]
  obtain ⟨w₀, ops, fF, fS, w', h₀, hf, hs, hF, hS, -, -, hrun, hne⟩ := C91_fails hC (by decide) (by decide) rfl hA hP
    (by rw [hA.eq.1]; exact hk) (by rw [hA.eq.2]; exact hk) (by norm_num [cfg, disc]) (by decide) (s := 1) (by decide) hm
  have := h _ hC (by decide) rfl rfl w₀ h₀ hf ops fF fS hs A₁ A₂ _ hA hF hS hP (.user 0) 1 w' hrun _
    (hC.full.lt 1 1 1 (by decide) (by decide))
  have e := marchDefect_top hC (by decide) (by decide) ((cfg true true).full.field fe (w'.heap (.user 1))) (s := 1) (by decide) false
  rw [if_neg (by decide)] at e
  refine hne ?_
  refine Eq.trans ?_ this
  refine (add_zero _).symm.trans (congrArg _ e.symm)

/-- `C91_system_partial` and `C91_recovers` have instances with forward jumps, for every right-hand side. -/
example (wp : Bool) : ∃ A₁ A₂ P, (cfg true wp).ReturnsSlab A₁ A₂ ∧ (cfg true wp).Returns true P ∧ A₂.UniquelySolvable := by
  obtain ⟨A₁, A₂, hA⟩ := cfg_returnsSlab true wp
  exact ⟨A₁, A₂, _, hA, cfg_returns true wp true, by
    rw [hA.eq.2]
    exact Mat.uniquelySolvable_of_kernel (slabForm_kernel_fw (cfg_ok true wp).disc polySpace_psd polySpace_definite
      (disc_positive true wp) (disc_fwDominated true wp) rfl fe_indep (cfg_ok true wp).slab (cfg_ok true wp).slabN)⟩

end Example

end Dxss
