import Verif.Lemmas.March
import Verif.Example.Layout

/-!
# Properties C20–C26: the time-marching preconditioner

`pre_time_marching_improved` is `preTimeMarchingImproved`, `pre_time_marching` is `preTimeMarching`.
`PreReady C o fF fS` says that the object has been prepared and that its two slab solvers compute the
(partial) functions `fF` (first slab) and `fS` (other slabs) of the right-hand side.
-/

namespace Dxss
open Finset
set_option linter.unusedSectionVars false
variable {V : Type} [AddCommGroup V] [Module ℝ V] {C : Cfg V}

/-! ### runs with the same slab solutions -/

theorem march_congr {l₀ : Vec} {ln : Vec → Vec} {fF fS : Vec → Py Vec} {b b' : Vec} {n : ℕ}
    (h : ∀ k ≤ n, pullS C k b = pullS C k b') :
    march C l₀ ln fF fS b n = march C l₀ ln fF fS b' n := by
  induction n with
  | zero => rw [march, march, h 0 le_rfl]
  | succ n ih =>
    rw [march, march, ih fun k hk => h k (by omega), h (n + 1) le_rfl]

theorem pullS_congr (hC : C.Ok) {x y : Vec} (h : ∀ d < C.full.size, x d = y d) {n : ℕ}
    (hn : n < C.D.N) : pullS C n x = pullS C n y := pull_congr (emb_slab hC hn) h

/-- Once a slab fails, the later ones fail in the same way. -/
theorem march_error_mono {l₀ : Vec} {ln : Vec → Vec} {fF fS : Vec → Py Vec} {b : Vec} {n : ℕ}
    {e : PyErr} (h : march C l₀ ln fF fS b n = .error e) {k : ℕ} (hk : n ≤ k) :
    march C l₀ ln fF fS b k = .error e := by
  induction k, hk using Nat.le_induction with
  | base => exact h
  | succ k hk ih => rw [march, ih]

theorem outcome_same (hC : C.Ok) {scr scr' : Set Ref} {x x' : Ref} {m m' : ℕ → Py Vec} {w w' : World V}
    {r r' : Py Unit × World V} (h : MarchOutcome C scr x m w r) (h' : MarchOutcome C scr' x' m' w' r')
    (hm : ∀ n < C.D.N, m n = m' n) (hmono : ∀ n e, m n = .error e → ∀ k, n ≤ k → m k = .error e) :
    r.1 = r'.1 ∧ (r.1 = .ok () → ∀ d < C.full.size, r.2.heap x d = r'.2.heap x' d) := by
  obtain ⟨-, -, -, -, h⟩ := h
  obtain ⟨-, -, -, -, h'⟩ := h'
  rcases r with ⟨e | u, v⟩ <;> rcases r' with ⟨e' | u', v'⟩
  · obtain ⟨n, hn, h1, h2, -⟩ := h
    obtain ⟨n', hn', h1', h2', -⟩ := h'
    refine ⟨?_, fun h => by cases h⟩
    rw [← hm n' hn'] at h1'
    show (Except.error e : Py Unit) = .error e'
    rcases le_total n n' with hnn | hnn
    · have := hmono n e h1 n' hnn; rw [this] at h1'; cases h1'; rfl
    · have := hmono n' e' h1' n hnn; rw [this] at h1; cases h1; rfl
  · obtain ⟨n, hn, h1, -, -⟩ := h
    obtain ⟨u, hu, -⟩ := h'.1 n hn
    rw [hm n hn, hu] at h1; cases h1
  · obtain ⟨n, hn, h1, -, -⟩ := h'
    obtain ⟨u, hu, -⟩ := h.1 n hn
    rw [← hm n hn, hu] at h1; cases h1
  · refine ⟨rfl, fun _ d hd => ?_⟩
    obtain ⟨n, c, l, s, hn, hl, hs, rfl⟩ := full_surj hC hd
    obtain ⟨u, hu, hb⟩ := h.1 n hn
    obtain ⟨u', hu', hb'⟩ := h'.1 n hn
    rw [hm n hn, hu'] at hu; cases hu
    exact (hb c l s hl hs).trans (hb' c l s hl hs).symm

/-! ## C20 -/

/-- The slab solution operator `f` solves the system with matrix `A`: whenever it returns, the result
satisfies the equations. -/
def Solves (f : Vec → Py Vec) (A : Mat) : Prop := ∀ r u, f r = .ok u → ∀ e < A.size, A.mult u e = r e

theorem march_residual (hC : C.Ok) {fF fS : Vec → Py Vec}
    (hF : Solves fF (slabMatOf C C.D.wellPosed)) (hS : Solves fS (slabMatOf C true))
    {b x : Vec} (hb : ∀ n < C.D.N, ∃ u, march C 0 (carry C) fF fS b n = .ok u ∧ BlockEq C n x u)
    {n : ℕ} (hn : n < C.D.N) : ∀ e < C.slab.size, pBlock C x n e = pullS C n b e := by
  intro e he
  obtain ⟨u, hu, hxu⟩ := hb n hn
  have h1 : (slabOp C n).mult (pullS C n x) = (slabOp C n).mult u :=
    slabOp_congr n fun e he => pullS_of_blockEq hC hn hxu he
  cases n with
  | zero =>
    rw [pBlock, h1, slabOp, if_pos rfl]
    rw [march] at hu
    rw [hF _ _ hu e he]; simp
  | succ n =>
    obtain ⟨v, hv, hxv⟩ := hb n (by omega)
    have h2 : carry C (pullS C n x) = carry C v :=
      carry_congr hC fun e he => pullS_of_blockEq hC (by omega) hxv he
    rw [pBlock, h1, h2, slabOp, if_neg (Nat.succ_ne_zero _), Pi.sub_apply]
    rw [march, hv] at hu
    rw [hS _ _ hu e he]; simp

/-- C20.  When `pre_time_marching_improved(b, x)` returns, the computed vector solves `P x = b`, where
`P` is the matrix of `get_spacetime_matrix(precond=True)` plus the extra `1e-20` placeholder summands
of the slab matrices.  Holds for both values of `well_posed`; `b` may be the same vector as `x`. -/
theorem C20_time_marching_solves (hC : C.Ok) (hN : 1 ≤ C.D.N) (hfw : C.D.jumpsFw = false)
    (w : World V) {fF fS : Vec → Py Vec} (hw : PreReady C w.obj fF fS)
    (hF : Solves fF (slabMatOf C C.D.wellPosed)) (hS : Solves fS (slabMatOf C true))
    (b x : Ref) (hb : b ∉ preScratch) (hx : x ∉ preScratch) (w' : World V)
    (hrun : preTimeMarchingImproved C b x w = (.ok (), w')) :
    ∀ d < C.full.size,
      (stMatOf C true).mult (w'.heap x) d
        + (∑ n ∈ range C.D.N, if n = 0 then 0 else 1e-20 * C.S.mass
            (C.full.field C.fe (w'.heap x) 0 (n * (C.D.q + 1)))
            (C.full.field C.fe (unitVec d) 2 (n * (C.D.qstar + 1))))
      = w.heap b d := by
  intro d hd
  have h := preImproved_run hC hw hb hx hfw
  rw [hrun] at h
  obtain ⟨-, -, -, -, h, -⟩ := h
  have h1 := pOp_eq hC hN hfw (w'.heap x) hd
  unfold pPlaceholders at h1
  rw [h1, ← sum_push_pull hC (w.heap b) hd]
  obtain ⟨n, c, l, s, hn, hl, hs, rfl⟩ := full_surj hC hd
  rw [sum_pushS_dof hC _ hn hl hs, sum_pushS_dof hC _ hn hl hs]
  exact march_residual hC hF hS h hn _ (hC.slab.lt c l s hl hs)

/-- C20: the call returns normally when the slab solvers do. -/
theorem C20_returns (hC : C.Ok) (hfw : C.D.jumpsFw = false) (w : World V) {fF fS : Vec → Py Vec}
    (hw : PreReady C w.obj fF fS) (hF : ∀ r, ∃ u, fF r = .ok u) (hS : ∀ r, ∃ u, fS r = .ok u)
    (b x : Ref) (hb : b ∉ preScratch) (hx : x ∉ preScratch) :
    ∃ w', preTimeMarchingImproved C b x w = (.ok (), w') := by
  have h := preImproved_run hC hw hb hx hfw
  obtain ⟨-, -, -, -, h⟩ := h
  rcases hr : preTimeMarchingImproved C b x w with ⟨e | u, w'⟩
  · rw [hr] at h
    obtain ⟨n, -, h1, -⟩ := h
    exfalso
    have : ∀ n, ∃ u, march C 0 (carry C) fF fS (w.heap b) n = .ok u := by
      intro n
      induction n with
      | zero => exact hF _
      | succ n ih => obtain ⟨u, hu⟩ := ih; rw [march, hu]; exact hS _
    obtain ⟨u, hu⟩ := this n
    rw [hu] at h1; cases h1
  · exact ⟨w', rfl⟩

/-! ## C21 -/

/-- `f` is a left inverse of `A`: on a right-hand side `A v` it returns `v`. -/
def LeftInverse (f : Vec → Py Vec) (A : Mat) : Prop :=
  ∀ v, ∃ u, f (A.mult v) = .ok u ∧ ∀ e < A.size, u e = v e

/-- C21.  Applied to `P y` (placeholder terms included) the preconditioner returns `y`. -/
theorem C21_recovers (hC : C.Ok) (hN : 1 ≤ C.D.N) (hfw : C.D.jumpsFw = false)
    (w : World V) {fF fS : Vec → Py Vec} (hw : PreReady C w.obj fF fS)
    (hF : LeftInverse fF (slabMatOf C C.D.wellPosed)) (hS : LeftInverse fS (slabMatOf C true))
    (b x : Ref) (hb : b ∉ preScratch) (hx : x ∉ preScratch) (y : Vec)
    (hy : ∀ d < C.full.size, w.heap b d = (stMatOf C true).mult y d
        + (∑ n ∈ range C.D.N, if n = 0 then 0 else 1e-20 * C.S.mass
            (C.full.field C.fe y 0 (n * (C.D.q + 1)))
            (C.full.field C.fe (unitVec d) 2 (n * (C.D.qstar + 1))))) :
    ∃ w', preTimeMarchingImproved C b x w = (.ok (), w') ∧
      ∀ d < C.full.size, w'.heap x d = y d := by
  have hbd : ∀ d < C.full.size, w.heap b d = (∑ n ∈ range C.D.N, pushS C n (pBlock C y n)) d := by
    intro d hd
    rw [hy d hd]
    exact pOp_eq hC hN hfw y hd
  have hpull : ∀ n < C.D.N, ∀ e, pullS C n (w.heap b) e = pBlock C y n e := by
    intro n hn e
    rw [pullS_congr hC hbd hn]
    by_cases he : e < C.slab.size
    · exact pullS_sum hC _ hn he
    · rw [pullS_ge hC hn _ he]
      cases n with
      | zero => rw [pBlock, slabOp_ge _ _ he]
      | succ n => rw [pBlock, Pi.sub_apply, slabOp_ge _ _ he, carry_ge hC _ he, sub_zero]
  have key : ∀ n < C.D.N, ∃ u, march C 0 (carry C) fF fS (w.heap b) n = .ok u ∧
      ∀ e < C.slab.size, u e = pullS C n y e := by
    intro n
    induction n with
    | zero =>
      intro hn
      obtain ⟨u, hu, hu'⟩ := hF (pullS C 0 y)
      refine ⟨u, ?_, hu'⟩
      rw [march, ← hu]
      congr 1
      funext e
      rw [Pi.add_apply, hpull 0 hn e, pBlock, slabOp, if_pos rfl]; simp
    | succ n ih =>
      intro hn
      obtain ⟨v, hv, hv'⟩ := ih (by omega)
      obtain ⟨u, hu, hu'⟩ := hS (pullS C (n + 1) y)
      refine ⟨u, ?_, hu'⟩
      rw [march, hv]
      simp only
      rw [← hu]
      congr 1
      funext e
      rw [Pi.add_apply, hpull (n + 1) hn e, pBlock, slabOp, if_neg (Nat.succ_ne_zero n),
        carry_congr hC hv']
      simp
  have h := preImproved_run hC hw hb hx hfw
  obtain ⟨-, -, -, -, h⟩ := h
  rcases hr : preTimeMarchingImproved C b x w with ⟨e | u, w'⟩
  · rw [hr] at h
    obtain ⟨n, hn, h1, -⟩ := h
    obtain ⟨u, hu, -⟩ := key n hn
    rw [hu] at h1; cases h1
  · rw [hr] at h
    refine ⟨w', rfl, fun d hd => ?_⟩
    obtain ⟨n, c, l, s, hn, hl, hs, rfl⟩ := full_surj hC hd
    obtain ⟨u, hu, hbe⟩ := h.1 n hn
    obtain ⟨v, hv, hv'⟩ := key n hn
    rw [hu] at hv; cases hv
    rw [hbe c l s hl hs, hv' _ (hC.slab.lt c l s hl hs)]
    exact pull_dof (emb_slab hC hn) y hl hs

/-! ## C22 -/

/-- The placeholder load `1e-20 * inner(1.0, y1_p[0]) * dx` of `pre_time_marching`, as a vector. -/
noncomputable def placeholderLoad (C : Cfg V) : Vec := fun e =>
  if e < C.slab.size then 1e-20 * C.S.mass C.S.one (C.slab.field C.fe (unitVec e) 2 0) else 0

theorem oldLoad_zero_eq (u v : V) : oldLoad C 0 u v = placeholderLoad C := by
  funext e
  simp [oldLoad, Disc.preLoad, placeholderLoad, assembleVec, evalLin, LTerm.eval, SOp.eval]

theorem oldCarry_eq (hC : C.Ok) (hfw : C.D.jumpsFw = false) (u : Vec) :
    oldCarry C u = placeholderLoad C + carry C u := by
  funext e
  rw [Pi.add_apply, placeholderLoad]
  by_cases he : e < C.slab.size
  · rw [carry_apply hC, oldCarry, oldLoad, assembleVec, if_pos he, if_pos he]
    simp [Disc.preLoad, hfw, evalLin, LTerm.eval, SOp.eval, Spec.jumpForm]
    ring
  · rw [carry_ge hC _ he, oldCarry, oldLoad, assembleVec, if_neg he, if_neg he, add_zero]

/-- C22.  `pre_time_marching` on `b` raises or returns, and returns the same vector, as
`pre_time_marching_improved` on `b` plus the fixed placeholder load in every slab. -/
theorem C22_variants_agree (hC : C.Ok) (hfw : C.D.jumpsFw = false)
    (w₁ w₂ : World V) {fF fS : Vec → Py Vec} (h₁ : SolReady C w₁.obj fF fS)
    (h₂ : PreReady C w₂.obj fF fS) (b x b' x' : Ref) (hb : b ∉ oldScratch) (hx : x ∉ oldScratch)
    (hb' : b' ∉ preScratch) (hx' : x' ∉ preScratch)
    (heq : ∀ n < C.D.N, ∀ c l s, l < C.slab.nsub c → s < C.fe.m c →
      w₂.heap b' (C.full.dof c (slabIx C.D n c l) s)
        = w₁.heap b (C.full.dof c (slabIx C.D n c l) s) + placeholderLoad C (C.slab.dof c l s)) :
    (preTimeMarching C b x w₁).1 = (preTimeMarchingImproved C b' x' w₂).1 ∧
    ((preTimeMarching C b x w₁).1 = .ok () → ∀ d < C.full.size,
      (preTimeMarching C b x w₁).2.heap x d = (preTimeMarchingImproved C b' x' w₂).2.heap x' d) := by
  refine outcome_same hC (preOld_run hC h₁ hb hx) (preImproved_run hC h₂ hb' hx' hfw) ?_
    (fun n e h k hk => march_error_mono h hk)
  have hp : ∀ n < C.D.N, pullS C n (w₂.heap b') = placeholderLoad C + pullS C n (w₁.heap b) := by
    intro n hn
    funext e
    rw [Pi.add_apply]
    by_cases he : e < C.slab.size
    · obtain ⟨c, l, s, hl, hs, rfl⟩ := hC.slab.surj e he
      unfold pullS
      rw [pull_dof (emb_slab hC hn) _ hl hs, pull_dof (emb_slab hC hn) _ hl hs, heq n hn c l s hl hs,
        add_comm]
    · rw [pullS_ge hC hn _ he, pullS_ge hC hn _ he, placeholderLoad, if_neg he, add_zero]
  intro n
  induction n with
  | zero => intro hn; rw [march, march, hp 0 hn, oldLoad_zero_eq, zero_add]
  | succ n ih =>
    intro hn
    rw [march, march, ih (by omega), hp (n + 1) hn]
    rcases march C 0 (carry C) fF fS (w₂.heap b') n with e | u
    · rfl
    · simp only [oldCarry_eq hC hfw]
      congr 1; abel

/-- C22: the same result for the same right-hand side when the placeholder load vanishes (for instance
because it is rounded to zero). -/
theorem C22_same_when_placeholder_zero (hC : C.Ok) (hfw : C.D.jumpsFw = false)
    (h0 : placeholderLoad C = 0) (w₁ w₂ : World V) {fF fS : Vec → Py Vec}
    (h₁ : SolReady C w₁.obj fF fS) (h₂ : PreReady C w₂.obj fF fS) (b x b' x' : Ref)
    (hb : b ∉ oldScratch) (hx : x ∉ oldScratch) (hb' : b' ∉ preScratch) (hx' : x' ∉ preScratch)
    (heq : ∀ d < C.full.size, w₂.heap b' d = w₁.heap b d) :
    (preTimeMarching C b x w₁).1 = (preTimeMarchingImproved C b' x' w₂).1 ∧
    ((preTimeMarching C b x w₁).1 = .ok () → ∀ d < C.full.size,
      (preTimeMarching C b x w₁).2.heap x d = (preTimeMarchingImproved C b' x' w₂).2.heap x' d) :=
  C22_variants_agree hC hfw w₁ w₂ h₁ h₂ b x b' x' hb hx hb' hx' fun n hn c l s hl hs => by
    rw [h0, heq _ (hC.full.lt _ _ _ ((emb_slab hC hn).range c l hl) hs)]; simp

/-! ## C23 -/

theorem outcome_causal {scr scr' : Set Ref} {x x' : Ref} {m m' : ℕ → Py Vec} {w w' : World V}
    {r r' : Py Unit × World V} (h : MarchOutcome C scr x m w r) (h' : MarchOutcome C scr' x' m' w' r')
    {n : ℕ} (hn : n ≤ C.D.N) (hm : ∀ k < n, m k = m' k) (hok : r.1 = .ok ()) :
    ∀ k < n, ∀ c l s, l < C.slab.nsub c → s < C.fe.m c →
      r'.2.heap x' (C.full.dof c (slabIx C.D k c l) s) = r.2.heap x (C.full.dof c (slabIx C.D k c l) s) := by
  obtain ⟨-, -, -, -, h⟩ := h
  obtain ⟨-, -, -, -, h'⟩ := h'
  intro k hk c l s hl hs
  rw [hok] at h
  obtain ⟨u, hu, hb⟩ := h.1 k (by omega)
  rcases r' with ⟨e' | u', v'⟩
  · obtain ⟨n', hn', h1', h2', -⟩ := h'
    have : k < n' := by
      by_contra hlt
      obtain ⟨v, hv, -⟩ := h.1 n' (by omega)
      rw [hm n' (by omega), h1'] at hv; cases hv
    obtain ⟨v, hv, hbv⟩ := h2' k this
    rw [hm k hk, hv] at hu; cases hu
    exact (hbv c l s hl hs).trans (hb c l s hl hs).symm
  · obtain ⟨v, hv, hbv⟩ := h'.1 k (by omega)
    rw [hm k hk, hv] at hu; cases hu
    exact (hbv c l s hl hs).trans (hb c l s hl hs).symm

/-- C23, `pre_time_marching_improved`: if two right-hand sides agree on slabs `< n` then so do the
results — even if the second call raises at a slab `≥ n`. -/
theorem C23_causal (hC : C.Ok) (hfw : C.D.jumpsFw = false) (w₁ w₂ : World V) {fF fS : Vec → Py Vec}
    (h₁ : PreReady C w₁.obj fF fS) (h₂ : PreReady C w₂.obj fF fS) (b x : Ref) (hb : b ∉ preScratch)
    (hx : x ∉ preScratch) (n : ℕ) (hn : n ≤ C.D.N)
    (heq : ∀ k < n, ∀ c l s, l < C.slab.nsub c → s < C.fe.m c →
      w₁.heap b (C.full.dof c (slabIx C.D k c l) s) = w₂.heap b (C.full.dof c (slabIx C.D k c l) s))
    (hok : (preTimeMarchingImproved C b x w₁).1 = .ok ()) :
    ∀ k < n, ∀ c l s, l < C.slab.nsub c → s < C.fe.m c →
      (preTimeMarchingImproved C b x w₂).2.heap x (C.full.dof c (slabIx C.D k c l) s)
        = (preTimeMarchingImproved C b x w₁).2.heap x (C.full.dof c (slabIx C.D k c l) s) :=
  outcome_causal (preImproved_run hC h₁ hb hx hfw) (preImproved_run hC h₂ hb hx hfw) hn
    (fun k hk => march_congr fun j hj => pullS_eq_of (heq j (by omega))) hok

/-- C23, `pre_time_marching` (with or without forward jumps). -/
theorem C23_causal_first_variant (hC : C.Ok) (w₁ w₂ : World V) {fF fS : Vec → Py Vec}
    (h₁ : SolReady C w₁.obj fF fS) (h₂ : SolReady C w₂.obj fF fS) (b x : Ref) (hb : b ∉ oldScratch)
    (hx : x ∉ oldScratch) (n : ℕ) (hn : n ≤ C.D.N)
    (heq : ∀ k < n, ∀ c l s, l < C.slab.nsub c → s < C.fe.m c →
      w₁.heap b (C.full.dof c (slabIx C.D k c l) s) = w₂.heap b (C.full.dof c (slabIx C.D k c l) s))
    (hok : (preTimeMarching C b x w₁).1 = .ok ()) :
    ∀ k < n, ∀ c l s, l < C.slab.nsub c → s < C.fe.m c →
      (preTimeMarching C b x w₂).2.heap x (C.full.dof c (slabIx C.D k c l) s)
        = (preTimeMarching C b x w₁).2.heap x (C.full.dof c (slabIx C.D k c l) s) :=
  outcome_causal (preOld_run hC h₁ hb hx) (preOld_run hC h₂ hb hx) hn
    (fun k hk => march_congr fun j hj => pullS_eq_of (heq j (by omega))) hok

/-! ## C24 -/

/-- C24: the outcome and the result depend only on the content of `b` and on the slab solvers — not on
earlier calls (scratch vectors), other attributes, or the previous content of `x`.  The two calls may
use different vectors, and `b` may be `x` in either. -/
theorem C24_depends_on_rhs_only (hC : C.Ok) (hfw : C.D.jumpsFw = false) (w₁ w₂ : World V)
    {fF fS : Vec → Py Vec} (h₁ : PreReady C w₁.obj fF fS) (h₂ : PreReady C w₂.obj fF fS)
    (b x b' x' : Ref) (hb : b ∉ preScratch) (hx : x ∉ preScratch) (hb' : b' ∉ preScratch)
    (hx' : x' ∉ preScratch) (heq : ∀ d < C.full.size, w₁.heap b d = w₂.heap b' d) :
    (preTimeMarchingImproved C b x w₁).1 = (preTimeMarchingImproved C b' x' w₂).1 ∧
    ((preTimeMarchingImproved C b x w₁).1 = .ok () → ∀ d < C.full.size,
      (preTimeMarchingImproved C b x w₁).2.heap x d = (preTimeMarchingImproved C b' x' w₂).2.heap x' d) :=
  outcome_same hC (preImproved_run hC h₁ hb hx hfw) (preImproved_run hC h₂ hb' hx' hfw)
    (fun n hn => march_congr fun k hk => pullS_congr hC heq (by omega))
    (fun n e h k hk => march_error_mono h hk)

/-- C24, the same for `pre_time_marching` (with or without forward jumps). -/
theorem C24_depends_on_rhs_only_first_variant (hC : C.Ok) (w₁ w₂ : World V)
    {fF fS : Vec → Py Vec} (h₁ : SolReady C w₁.obj fF fS) (h₂ : SolReady C w₂.obj fF fS)
    (b x b' x' : Ref) (hb : b ∉ oldScratch) (hx : x ∉ oldScratch) (hb' : b' ∉ oldScratch)
    (hx' : x' ∉ oldScratch) (heq : ∀ d < C.full.size, w₁.heap b d = w₂.heap b' d) :
    (preTimeMarching C b x w₁).1 = (preTimeMarching C b' x' w₂).1 ∧
    ((preTimeMarching C b x w₁).1 = .ok () → ∀ d < C.full.size,
      (preTimeMarching C b x w₁).2.heap x d = (preTimeMarching C b' x' w₂).2.heap x' d) :=
  outcome_same hC (preOld_run hC h₁ hb hx) (preOld_run hC h₂ hb' hx')
    (fun n hn => march_congr fun k hk => pullS_congr hC heq (by omega))
    (fun n e h k hk => march_error_mono h hk)

/-- C24: everything except `x` and the named scratch vectors is unchanged, whether the call returns or
raises; in particular `b` when it is not `x`. -/
theorem C24_frame (hC : C.Ok) (hfw : C.D.jumpsFw = false) (w : World V) {fF fS : Vec → Py Vec}
    (hw : PreReady C w.obj fF fS) (b x : Ref) (hb : b ∉ preScratch) (hx : x ∉ preScratch) :
    (preTimeMarchingImproved C b x w).2.obj = w.obj ∧
    ∀ r, r ∉ preScratch → r ≠ x → (preTimeMarchingImproved C b x w).2.heap r = w.heap r :=
  have h := preImproved_run hC hw hb hx hfw
  ⟨h.2.1, h.1⟩

/-- The solver is linear: it succeeds on combinations of right-hand sides on which it succeeds, with
the combined solution. -/
def SolLinear (size : ℕ) (f : Vec → Py Vec) : Prop :=
  ∀ (a a' : ℝ) r r' u u', f r = .ok u → f r' = .ok u' →
    ∃ v, f (a • r + a' • r') = .ok v ∧ ∀ e < size, v e = a * u e + a' * u' e

theorem carry_lin (a a' : ℝ) (u u' : Vec) :
    carry C (a • u + a' • u') = a • carry C u + a' • carry C u' := by
  simp only [carry, pull_add, pull_smul, Mat.mult_add, Mat.mult_smul, push_add, push_smul]

theorem march_linear (hC : C.Ok) {fF fS : Vec → Py Vec} (hF : SolLinear C.slab.size fF)
    (hS : SolLinear C.slab.size fS) (a a' : ℝ) {b b' : Vec} (n : ℕ) :
    ∀ u u', march C 0 (carry C) fF fS b n = .ok u → march C 0 (carry C) fF fS b' n = .ok u' →
      ∃ v, march C 0 (carry C) fF fS (a • b + a' • b') n = .ok v ∧
        ∀ e < C.slab.size, v e = a * u e + a' * u' e := by
  induction n with
  | zero =>
    intro u u' h h'
    rw [march] at h h' ⊢
    obtain ⟨v, h1, h2⟩ := hF a a' _ _ u u' h h'
    refine ⟨v, ?_, h2⟩
    rw [← h1]
    congr 1
    simp only [pullS, pull_add, pull_smul, zero_add]
  | succ n ih =>
    intro u u' h h'
    rw [march] at h h' ⊢
    rcases e1 : march C 0 (carry C) fF fS b n with e | y
    · rw [e1] at h; cases h
    rcases e2 : march C 0 (carry C) fF fS b' n with e | y'
    · rw [e2] at h'; cases h'
    rw [e1] at h; rw [e2] at h'
    obtain ⟨y'', h3, h4⟩ := ih y y' e1 e2
    obtain ⟨v, h1, h2⟩ := hS a a' _ _ u u' h h'
    refine ⟨v, ?_, h2⟩
    rw [h3]
    simp only
    rw [← h1]
    congr 1
    rw [carry_congr hC (v := a • y + a' • y') (fun e he => by simp [h4 e he]), carry_lin]
    simp only [pullS, pull_add, pull_smul, smul_add]
    abel

/-- C24: linear in `b` when the slab solvers are. -/
theorem C24_linear (hC : C.Ok) (hfw : C.D.jumpsFw = false) (w₁ w₂ w₃ : World V)
    {fF fS : Vec → Py Vec} (h₁ : PreReady C w₁.obj fF fS) (h₂ : PreReady C w₂.obj fF fS)
    (h₃ : PreReady C w₃.obj fF fS) (hF : SolLinear C.slab.size fF) (hS : SolLinear C.slab.size fS)
    (b x : Ref) (hb : b ∉ preScratch) (hx : x ∉ preScratch) (a a' : ℝ)
    (heq : w₃.heap b = a • w₁.heap b + a' • w₂.heap b) (w₁' w₂' : World V)
    (r₁ : preTimeMarchingImproved C b x w₁ = (.ok (), w₁'))
    (r₂ : preTimeMarchingImproved C b x w₂ = (.ok (), w₂')) :
    ∃ w₃', preTimeMarchingImproved C b x w₃ = (.ok (), w₃') ∧
      ∀ d < C.full.size, w₃'.heap x d = a * w₁'.heap x d + a' * w₂'.heap x d := by
  have o1 := preImproved_run hC h₁ hb hx hfw
  have o2 := preImproved_run hC h₂ hb hx hfw
  have o3 := preImproved_run hC h₃ hb hx hfw
  rw [r₁] at o1; rw [r₂] at o2
  obtain ⟨-, -, -, -, o1, -⟩ := o1
  obtain ⟨-, -, -, -, o2, -⟩ := o2
  obtain ⟨-, -, -, -, o3⟩ := o3
  rcases hr : preTimeMarchingImproved C b x w₃ with ⟨e | u, w₃'⟩
  · rw [hr] at o3
    obtain ⟨n, hn, h, -⟩ := o3
    obtain ⟨u, hu, -⟩ := o1 n hn
    obtain ⟨u', hu', -⟩ := o2 n hn
    obtain ⟨v, hv, -⟩ := march_linear hC hF hS a a' n u u' hu hu'
    rw [heq, hv] at h; cases h
  · rw [hr] at o3
    refine ⟨w₃', rfl, fun d hd => ?_⟩
    obtain ⟨n, c, l, s, hn, hl, hs, rfl⟩ := full_surj hC hd
    obtain ⟨u, hu, b1⟩ := o1 n hn
    obtain ⟨u', hu', b2⟩ := o2 n hn
    obtain ⟨v', hv', b3⟩ := o3.1 n hn
    obtain ⟨v, hv, hvv⟩ := march_linear hC hF hS a a' n u u' hu hu'
    rw [heq, hv] at hv'; cases hv'
    rw [b1 c l s hl hs, b2 c l s hl hs, b3 c l s hl hs, hvv _ (hC.slab.lt c l s hl hs)]

/-! ## C25 -/

/-- C25: with `jumps_in_fw_problem=True` the call raises `ValueError` and changes nothing, in every
state of the object. -/
theorem C25_rejected (hfw : C.D.jumpsFw = true) (w : World V) (b x : Ref) :
    preTimeMarchingImproved C b x w = (.error .valueError, w) := by
  unfold preTimeMarchingImproved
  simp only [hfw, if_true]
  rfl

/-- C25: no `ValueError` of this kind otherwise — the call fails only if a slab solver does. -/
theorem C25_only_then (hC : C.Ok) (hfw : C.D.jumpsFw = false) (w : World V) {fF fS : Vec → Py Vec}
    (hw : PreReady C w.obj fF fS) (b x : Ref) (hb : b ∉ preScratch) (hx : x ∉ preScratch) (e : PyErr)
    (he : (preTimeMarchingImproved C b x w).1 = .error e) : (∃ r, fF r = .error e) ∨ ∃ r, fS r = .error e := by
  obtain ⟨-, -, -, -, h⟩ := preImproved_run hC hw hb hx hfw
  rw [he] at h
  obtain ⟨n, hn, h1, h2, -⟩ := h
  cases n with
  | zero => rw [march] at h1; exact Or.inl ⟨_, h1⟩
  | succ n =>
    obtain ⟨u, hu, -⟩ := h2 n (by omega)
    rw [march, hu] at h1; exact Or.inr ⟨_, h1⟩

/-! ## C26 -/

/-- C26: when the call raises, the exception is the one raised by the slab solver at some slab `n` on
the right-hand side of that slab; the blocks of slabs `≥ n` of `x` keep their previous content, and no
attribute of the object changes. -/
theorem C26_failure_frame (hC : C.Ok) (hfw : C.D.jumpsFw = false) (w : World V) {fF fS : Vec → Py Vec}
    (hw : PreReady C w.obj fF fS) (b x : Ref) (hb : b ∉ preScratch) (hx : x ∉ preScratch) (e : PyErr)
    (he : (preTimeMarchingImproved C b x w).1 = .error e) :
    (preTimeMarchingImproved C b x w).2.obj = w.obj ∧
    ∃ n < C.D.N, (∃ r, (if n = 0 then fF else fS) r = .error e) ∧
      ∀ k, n ≤ k → k < C.D.N → ∀ c l s, l < C.slab.nsub c → s < C.fe.m c →
        (preTimeMarchingImproved C b x w).2.heap x (C.full.dof c (slabIx C.D k c l) s)
          = w.heap x (C.full.dof c (slabIx C.D k c l) s) := by
  obtain ⟨-, ho, -, -, h⟩ := preImproved_run hC hw hb hx hfw
  rw [he] at h
  obtain ⟨n, hn, h1, h2, h3⟩ := h
  refine ⟨ho, n, hn, ?_, fun k hk hkN c l s hl hs => h3 _ fun j hj =>
    off_of_ne hC hkN (by omega) (by omega) hl hs⟩
  cases n with
  | zero => rw [march] at h1; exact ⟨_, h1⟩
  | succ n =>
    obtain ⟨u, hu, -⟩ := h2 n (by omega)
    rw [march, hu] at h1; exact ⟨_, h1⟩

/-- C26: after a call that raised (or not), setting solvers `s₁`, `s₂` and calling again gives the same
outcome and vector as the same call on any other prepared object with these solvers. -/
theorem C26_retry_like_fresh (hC : C.Ok) (hfw : C.D.jumpsFw = false) (w : World V)
    {fF fS : Vec → Py Vec} (hw : PreReady C w.obj fF fS) (b x : Ref) (hb : b ∉ preScratch)
    (hx : x ∉ preScratch) {gF gS : Vec → Py Vec} (s₁ s₂ : Solver)
    (h₁ : s₁.Computes C.slab.size gF) (h₂ : s₂.Computes C.slab.size gS)
    (w₁ : World V) (hw₁ : w₁.obj = { (preTimeMarchingImproved C b x w).2.obj with
      solverFirst := some s₁, solverSlab := some s₂ })
    (w₂ : World V) (hw₂ : PreReady C w₂.obj gF gS) (b' x' : Ref) (hb' : b' ∉ preScratch)
    (hx' : x' ∉ preScratch) (heq : ∀ d < C.full.size, w₁.heap b' d = w₂.heap b' d) :
    (preTimeMarchingImproved C b' x' w₁).1 = (preTimeMarchingImproved C b' x' w₂).1 ∧
    ((preTimeMarchingImproved C b' x' w₁).1 = .ok () → ∀ d < C.full.size,
      (preTimeMarchingImproved C b' x' w₁).2.heap x' d
        = (preTimeMarchingImproved C b' x' w₂).2.heap x' d) := by
  have ho := (C24_frame hC hfw w hw b x hb hx).1
  refine C24_depends_on_rhs_only hC hfw w₁ w₂ ?_ hw₂ b' x' b' x' hb' hx' hb' hx' heq
  rw [hw₁, ho]
  exact ⟨⟨hw.dofmaps, ⟨s₁, rfl, h₁⟩, fun _ => ⟨s₂, rfl, h₂⟩⟩, hw.bRhsPre, hw.bndVecs, hw.bndMat⟩

/-! ## Non-vacuity -/

namespace Example
open Polynomial

/-- An object prepared for preconditioning with the given solvers. -/
noncomputable def preObj (C : Cfg V) (sF sS : Solver) : Obj V where
  dofmaps := some (mkDofmaps C)
  bRhsPre := some ()
  bndVecs := some ()
  bndMat := some (bndMatOf C)
  solverFirst := some sF
  solverSlab := some sS

noncomputable def preWorld (C : Cfg V) (sF sS : Solver) (heap : Ref → Vec) : World V where
  obj := preObj C sF sS
  heap := heap
  sched _ := false
  clock := 0

/-- The solver object computing `f`; when `f` raises, its output vector is left half-written. -/
def solverOf (f : Vec → Py Vec) : Solver := fun b x => match f b with
  | .ok u => (.ok (), u)
  | .error e => (.error e, b - x)

theorem solverOf_computes (f : Vec → Py Vec) (n : ℕ) : (solverOf f).Computes n f := by
  intro b x0
  unfold solverOf
  rcases f b with e | u
  · rfl
  · exact ⟨rfl, fun _ _ => rfl⟩

theorem preWorld_ready (C : Cfg V) (fF fS : Vec → Py Vec) (heap : Ref → Vec) :
    PreReady C (preWorld C (solverOf fF) (solverOf fS) heap).obj fF fS :=
  ⟨⟨rfl, ⟨_, rfl, solverOf_computes _ _⟩, fun _ => ⟨_, rfl, solverOf_computes _ _⟩⟩, rfl, rfl, rfl⟩

theorem user_pre (k : ℕ) : (Ref.user k) ∉ preScratch := by simp [preScratch]
theorem user_old (k : ℕ) : (Ref.user k) ∉ oldScratch := by simp [oldScratch]

/-- A linear solver (scaling) and one that fails on every non-zero right-hand side. -/
def scaleSol : Vec → Py Vec := fun r => .ok ((2 : ℝ) • r)
noncomputable def failSol : Vec → Py Vec := fun r =>
  haveI := Classical.propDecidable (r = 0); if r = 0 then .ok 0 else .error .solverError

theorem scaleSol_linear (n : ℕ) : SolLinear n scaleSol := by
  intro a a' r r' u u' h h'
  cases h; cases h'
  exact ⟨_, rfl, fun e _ => by simp; ring⟩

example (heap : Ref → Vec) := C20_returns (cfg_ok false true) rfl _
  (preWorld_ready (cfg false true) scaleSol scaleSol heap) (fun _ => ⟨_, rfl⟩) (fun _ => ⟨_, rfl⟩)
  (.user 0) (.user 1) (user_pre 0) (user_pre 1)

example (heap heap' : Ref → Vec) := C22_variants_agree (cfg_ok false false) rfl _ _
  (preWorld_ready (cfg false false) scaleSol failSol heap).toSolReady
  (preWorld_ready (cfg false false) scaleSol failSol heap')
  (.user 0) (.user 1) (.user 0) (.user 0) (user_old 0) (user_old 1) (user_pre 0) (user_pre 0)

example (heap heap' : Ref → Vec) := C23_causal (cfg_ok false true) rfl _ _
  (preWorld_ready (cfg false true) scaleSol failSol heap)
  (preWorld_ready (cfg false true) scaleSol failSol heap')
  (.user 0) (.user 1) (user_pre 0) (user_pre 1) 1 (by decide)

example (heap heap' : Ref → Vec) := C23_causal_first_variant (cfg_ok true true) _ _
  (preWorld_ready (cfg true true) scaleSol scaleSol heap).toSolReady
  (preWorld_ready (cfg true true) scaleSol scaleSol heap').toSolReady
  (.user 0) (.user 1) (user_old 0) (user_old 1) 1 (by decide)

example (heap heap' : Ref → Vec) := C24_depends_on_rhs_only (cfg_ok false true) rfl _ _
  (preWorld_ready (cfg false true) scaleSol failSol heap)
  (preWorld_ready (cfg false true) scaleSol failSol heap')
  (.user 0) (.user 0) (.user 0) (.user 1) (user_pre 0) (user_pre 0) (user_pre 0) (user_pre 1)

example (heap heap' heap'' : Ref → Vec) := C24_linear (cfg_ok false true) rfl _ _ _
  (preWorld_ready (cfg false true) scaleSol scaleSol heap)
  (preWorld_ready (cfg false true) scaleSol scaleSol heap')
  (preWorld_ready (cfg false true) scaleSol scaleSol heap'') (scaleSol_linear _) (scaleSol_linear _)
  (.user 0) (.user 1) (user_pre 0) (user_pre 1)

example (w : World ℝ[X]) := C25_rejected (C := cfg true false) rfl w (.user 0) (.user 1)

/-- There are failing calls: a solver that raises on the first slab. -/
theorem failing_call (heap : Ref → Vec) :
    (preTimeMarchingImproved (cfg false true) (.user 0) (.user 1)
      (preWorld (cfg false true) (solverOf fun _ => .error .solverError) (solverOf scaleSol) heap)).1
      = .error .solverError := by
  obtain ⟨-, -, -, -, h⟩ := preImproved_run (cfg_ok false true)
    (preWorld_ready (cfg false true) (fun _ => .error .solverError) scaleSol heap) (user_pre 0)
    (user_pre 1) rfl
  rcases hr : preTimeMarchingImproved (cfg false true) (.user 0) (.user 1)
      (preWorld (cfg false true) (solverOf fun _ => .error .solverError) (solverOf scaleSol) heap)
    with ⟨e | u, w'⟩
  · rw [hr] at h
    obtain ⟨n, -, h1, -⟩ := h
    have := march_error_mono (C := cfg false true) (l₀ := 0) (ln := carry (cfg false true))
      (fF := fun _ => .error .solverError) (fS := scaleSol) (b := heap (.user 0)) (n := 0)
      (e := .solverError) rfl (Nat.zero_le n)
    rw [show march (cfg false true) 0 (carry (cfg false true)) (fun _ => .error .solverError) scaleSol
      ((preWorld (cfg false true) (solverOf fun _ => .error .solverError) (solverOf scaleSol) heap).heap
        (.user 0)) n = _ from this] at h1
    cases h1; rfl
  · rw [hr] at h
    obtain ⟨u, hu, -⟩ := h.1 0 (by decide)
    rw [march] at hu; cases hu

example (heap : Ref → Vec) := C26_failure_frame (cfg_ok false true) rfl _
  (preWorld_ready (cfg false true) (fun _ => .error .solverError) scaleSol heap) (.user 0) (.user 1)
  (user_pre 0) (user_pre 1) _ (failing_call heap)

end Example
end Dxss
