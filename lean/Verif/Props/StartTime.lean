import Verif.Props.Scripts

/-!
# Property C69: the time window of the data
-/

namespace Dxss
open Finset
set_option linter.unusedSectionVars false
variable {V : Type} [AddCommGroup V] [Module ℝ V]

/-- The full statement of C69: the start time passed to the constructor is the time from which the solution
is observed, so values of the solution before it have no influence on the right-hand side.
It is false, see `C69_violated`. -/
def C69_statement (V : Type) [AddCommGroup V] [Module ℝ V] : Prop :=
  ∀ (interp : V →ₗ[ℝ] V) (a : Args V) (sol₂ : ℝ → V) (om om' om₂' : DataDomain V) (B B₂ : Built V),
    0 < a.N → 0 < a.T →
    construct interp a om = (.ok B, om') → construct interp { a with sol := sol₂ } om = (.ok B₂, om₂') →
    (∀ s, a.t ≤ s → s ≤ a.t + a.T → sol₂ s = a.sol s) →
    ∀ (C C₂ : Cfg V), C.Ok → C.OfBuilt B → C₂.Ok → C₂.OfBuilt B₂ → C₂.S = C.S → C₂.fe = C.fe → C₂.full = C.full →
    ∀ (w₀ v₀ : World V), w₀.Fresh → w₀.NoFail → v₀.Fresh → v₀.NoFail → ∀ (u v : V) (r r₂ : Ref) (w₁ v₁ : World V),
      getSpacetimeRhs C (runOps C [.setupFE, .setInitial u v] w₀) = (.ok r, w₁) →
      getSpacetimeRhs C₂ (runOps C₂ [.setupFE, .setInitial u v] v₀) = (.ok r₂, v₁) →
      ∀ d < C.full.size, w₁.heap r d = v₁.heap r₂ d

/-- A rule on a slab only sees the times of that slab. -/
theorem ruleOnSlab_local {r : QuadRule} (hr : mkQuadRule "Gauss-Radau" 4 = .ok r) {dt : ℝ} (hdt : 0 < dt) {n : ℕ}
    {Q : (ℝ → ℝ) → ℝ} (hQ : RuleOnSlab r dt n Q) {f g : ℝ → ℝ}
    (h : ∀ t, n * dt ≤ t → t ≤ (n + 1 : ℕ) * dt → f t = g t) : Q f = Q g := by
  obtain ⟨pts, ws, h1, h2, h3⟩ := hQ
  obtain rfl := (Except.ok.inj hr).symm
  rw [h3, h3]
  simp only [QuadRule.currentPts, QuadRule.tWeights, true_or, if_true, Except.ok.injEq,
    Option.some.injEq] at h1 h2
  subst h1 h2
  have key : ∀ p : ℝ, -1 ≤ p → p ≤ 1 → f (0.5 * (((n + 1 : ℕ) : ℝ) * dt - n * dt) * p + 0.5 * (((n + 1 : ℕ) : ℝ) * dt + n * dt))
      = g (0.5 * (((n + 1 : ℕ) : ℝ) * dt - n * dt) * p + 0.5 * (((n + 1 : ℕ) : ℝ) * dt + n * dt)) := by
    intro p hp1 hp2
    refine h _ ?_ ?_
    · push_cast; nlinarith
    · push_cast; nlinarith
  simp only [quadSum, List.map_cons, List.map_nil, List.zipWith_cons_cons, List.zipWith_nil_right, List.sum_cons]
  rw [key _ (by norm_num) (by norm_num), key _ (by norm_num) (by norm_num), key _ (by norm_num) (by norm_num),
    key _ (by norm_num) (by norm_num)]

theorem construct_facts {interp : V →ₗ[ℝ] V} {a : Args V} {om om' : DataDomain V} {B : Built V}
    (hb : construct interp a om = (.ok B, om')) : ∃ b, basisInTime a.otime.q.toNat = some b ∧ B = builtOf interp a om b := by
  have hN : a.N ≠ 0 := by
    intro h
    have := (C36_zero_division (interp := interp) (om := om)).2 h
    rw [hb] at this; cases this
  have hs : a.Supported := by
    by_contra h
    have := (C36_key_error (interp := interp) (om := om)).2 ⟨hN, h⟩
    rw [hb] at this; cases this
  obtain ⟨b, h1, e⟩ := construct_run (interp := interp) (om := om) hN hs
  rw [hb] at e
  exact ⟨b, h1, Except.ok.inj (Prod.ext_iff.1 e).1⟩

/-- C69, what does hold: only values of the solution at times in `[0, T]` enter the right-hand side, and the
start time has no influence at all, nor has the time derivative of the solution. -/
theorem C69_window_partial {interp : V →ₗ[ℝ] V} {a : Args V} {sol₂ dsol₂ : ℝ → V} {t₂ : ℝ} {om om' om₂' : DataDomain V}
    {B B₂ : Built V} (hN : 0 < a.N) (hT : 0 < a.T) (hb : construct interp a om = (.ok B, om'))
    (hb₂ : construct interp { a with sol := sol₂, dsol := dsol₂, t := t₂ } om = (.ok B₂, om₂'))
    (hsol : ∀ s, 0 ≤ s → s ≤ a.T → sol₂ s = a.sol s)
    {C C₂ : Cfg V} (hC : C.Ok) (hB : C.OfBuilt B) (hC₂ : C₂.Ok) (hB₂ : C₂.OfBuilt B₂) (hS : C₂.S = C.S)
    (hfe : C₂.fe = C.fe) (hL : C₂.full = C.full) {w₀ v₀ : World V} (h₀ : w₀.Fresh) (hf : w₀.NoFail)
    (g₀ : v₀.Fresh) (gf : v₀.NoFail) (u v : V) (ops ops₂ : List (Op V)) (hops : ∀ op ∈ ops, ¬ op.WritesInitial)
    (hops₂ : ∀ op ∈ ops₂, ¬ op.WritesInitial) {r r₂ : Ref} {w₁ v₁ : World V}
    (h : getSpacetimeRhs C (runOps C (.setupFE :: .setInitial u v :: ops) w₀) = (.ok r, w₁))
    (h₂ : getSpacetimeRhs C₂ (runOps C₂ (.setupFE :: .setInitial u v :: ops₂) v₀) = (.ok r₂, v₁)) :
    ∀ d < C.full.size, w₁.heap r d = v₁.heap r₂ d := by
  obtain ⟨b, hbt, rfl⟩ := construct_facts hb
  obtain ⟨b₂, hbt₂, rfl⟩ := construct_facts hb₂
  have hbb : b₂ = b := Option.some.inj (hbt₂.symm.trans hbt)
  subst hbb
  have eN : (C.D.N : ℤ) = a.N := by rw [hB.D]; exact Int.toNat_of_nonneg hN.le
  have eNr : (C.D.N : ℝ) = a.N := by exact_mod_cast eN
  have edt : C.D.dt = a.T / a.N := by rw [hB.D]; rfl
  have hNr : (0 : ℝ) < a.N := by exact_mod_cast hN
  have hdt : 0 < C.D.dt := by rw [edt]; positivity
  have hr := (construct_qr hb).1
  choose Q hQ using exists_ruleOnSlab hr C.D.dt
  have hD : C₂.D = { C.D with sol := sol₂ } := by rw [hB₂.D, hB.D]; rfl
  have hQ₂ : ∀ n < C₂.D.N, RuleOnSlab (builtOf interp { a with sol := sol₂, dsol := dsol₂, t := t₂ } om b₂).qr C₂.D.dt n (Q n) := by
    intro n _
    rw [hD]; exact hQ n
  intro d hd
  have pick : ∀ (x : Vec), ∑ e ∈ range C.full.size, x e * unitVec d e = x d := by
    intro x
    rw [sum_eq_single d]
    · simp [unitVec]
    · intro e _ hne; simp [unitVec, hne]
    · intro hne; exact absurd (mem_range.2 hd) hne
  have e1 := C63_rhs_vector hb hC hB h₀ hf u v ops hops h (fun n _ => hQ n) (unitVec d)
  have e2 := C63_rhs_vector hb₂ hC₂ hB₂ g₀ gf u v ops₂ hops₂ h₂ hQ₂ (unitVec d)
  rw [pick] at e1
  rw [hL, pick, hS, hfe, hD] at e2
  rw [e1, e2]
  congr 1
  simp only [Spec.load]
  congr 1
  refine sum_congr rfl fun n hn => ?_
  congr 1
  refine ruleOnSlab_local hr hdt (hQ n) fun t ht1 ht2 => ?_
  have hn1 : ((n + 1 : ℕ) : ℝ) ≤ C.D.N := by exact_mod_cast mem_range.1 hn
  have es : C.D.sol = a.sol := by rw [hB.D]; rfl
  rw [es, hsol t (le_trans (by positivity) ht1)]
  refine ht2.trans ((mul_le_mul_of_nonneg_right hn1 hdt.le).trans (le_of_eq ?_))
  rw [eNr, edt]; field_simp

namespace Example

/-- Arguments with start time `1/2`. -/
noncomputable def argsT (sol : ℝ → V3) : Args V3 :=
  { args3 with sol := sol, dsol := fun _ => 0, t := 1 / 2, parameters := {} }

theorem builtT (sol : ℝ → V3) : ∃ B, construct LinearMap.id (argsT sol) ⟨(1, 0, 0), false⟩ = (.ok B, ⟨(1, 0, 0), false⟩) ∧
    (cfg3 B).Ok ∧ (cfg3 B).OfBuilt B ∧ B.D.ind = (1, 0, 0) ∧ B.D.wellPosed = false ∧
    B.D.sol = sol ∧ B.D.N = 2 ∧ B.D.dt = 1 / 2 ∧ B.D.q = 1 ∧ B.D.gData = 1e4 := by
  obtain ⟨b, -, e⟩ := construct_run (interp := LinearMap.id) (a := argsT sol) (om := ⟨(1, 0, 0), false⟩)
    (by simp [argsT, args3]) args3_supported
  have hdt : (builtOf LinearMap.id (argsT sol) ⟨(1, 0, 0), false⟩ b).D.dt = 1 / 2 := by simp [builtOf, argsT, args3]
  refine ⟨_, e, ?_, ?_, rfl, rfl, rfl, rfl, hdt, rfl, rfl⟩
  · exact ⟨⟨getElmatTime_ok (by simp [cfg3, builtOf, argsT, args3]) (by simp [cfg3, builtOf, argsT, args3]),
      by rw [cfg3, hdt]; norm_num⟩, stdSpace_ok _ _, rfl,
      stdSpace_ok _ _, rfl, stdSpace_ok _ _, rfl, stdSpace_ok _ _, rfl⟩
  · constructor <;> simp [cfg3, builtOf, QuadRule.currentPts, QuadRule.tWeights, gaussRadau]

theorem const_field {B : Built V3} {i : ℤ} (h0 : 0 ≤ i) (h1 : i < 4) :
    (cfg3 B).full.field (cfg3 B).fe (fun d => if d < 8 then 1 else 0) 0 i = (1, 0, 0) := by
  have hi : i.toNat < 4 := by omega
  have hd : ∀ s < 2, (if (cfg3 B).full.dof 0 i.toNat s < 8 then (1:ℝ) else 0) = 1 := by
    intro s hs
    have : (cfg3 B).full.dof 0 i.toNat s = _ := stdSpace_dof (n := fullSizes 1 1 2) (m := fe3.m) (c := 0) hs
    rw [this, if_pos]
    simp [off, fullSizes]
    omega
  have hc : (0 ≤ i ∧ i < ((cfg3 B).full.nsub 0 : ℤ)) := ⟨h0, h1⟩
  have hm : (cfg3 B).fe.m 0 = 2 := rfl
  rw [FSpace.field, if_pos hc, hm, sum_range_succ, sum_range_one, hd 0 (by norm_num), hd 1 (by norm_num)]
  simp [cfg3, fe3, FE.basis]

/-- C69 is false: with start time `1/2`, values at times before `1/2` enter. -/
theorem C69_violated : ¬ C69_statement V3 := by
  intro hst
  set f : ℝ → V3 := fun _ => (1, 0, 0) with hf
  set g : ℝ → V3 := fun t => if t < 1 / 2 then 0 else (1, 0, 0) with hg
  obtain ⟨B, hb, hC, hO, hi, hwp, hs, hN, hdt, hq, hgd⟩ := builtT f
  obtain ⟨B₂, hb₂, hC₂, hO₂, hi₂, hwp₂, hs₂, hN₂, hdt₂, hq₂, hgd₂⟩ := builtT g
  obtain ⟨w₁, h⟩ := getRhs_after (cfg3 B) (fun _ => 0) 0 0 []
  obtain ⟨v₁, h₂⟩ := getRhs_after (cfg3 B₂) (fun _ => 0) 0 0 []
  have key := hst LinearMap.id (argsT f) g _ _ _ B B₂ (by simp [argsT, args3]) (by simp [argsT, args3]) hb hb₂
    (fun s hs1 _ => by
      have : ¬ s < 1 / 2 := not_lt.2 hs1
      simp only [hg, if_neg this]; rfl) (cfg3 B) (cfg3 B₂) hC hO hC₂ hO₂ rfl rfl rfl _ _ (freshWorld_fresh _)
    (freshWorld_noFail _) (freshWorld_fresh _) (freshWorld_noFail _) 0 0 _ _ _ _ h h₂
  choose Q hQ using exists_ruleOnSlab (construct_qr hb).1 (1 / 2)
  have hr := (construct_qr hb).1
  have hqr : B₂.qr = B.qr := Except.ok.inj ((construct_qr hb₂).1.symm.trans hr)
  set y : Vec := fun d => if d < 8 then 1 else 0 with hy
  have e1 := C63_rhs_vector hb hC hO (freshWorld_fresh _) (freshWorld_noFail _) 0 0 [] (by simp) h (Q := Q)
    (fun n _ => by rw [show (cfg3 B).D.dt = 1 / 2 from hdt]; exact hQ n) y
  have e2 := C63_rhs_vector hb₂ hC₂ hO₂ (freshWorld_fresh _) (freshWorld_noFail _) 0 0 [] (by simp) h₂ (Q := Q)
    (fun n _ => by rw [show (cfg3 B₂).D.dt = 1 / 2 from hdt₂, hqr]; exact hQ n) y
  have e3 : ∑ d ∈ range (cfg3 B).full.size, w₁.heap .rhs d * y d = ∑ d ∈ range (cfg3 B₂).full.size, v₁.heap .rhs d * y d :=
    sum_congr rfl fun d hd => by rw [key d (mem_range.1 hd)]
  rw [e1, e2] at e3
  have e4 := add_right_cancel e3
  have hval : ∀ (B : Built V3) (n : ℕ), n < 2 → ∀ t, Spec.val 1 (1 / 2) n ((cfg3 B).full.field (cfg3 B).fe y 0) t = (1, 0, 0) := by
    intro B n hn t
    rw [Spec.val, sum_congr rfl fun j hj => by rw [const_field (by positivity) (by have := mem_range.1 hj; push_cast; omega)],
      ← sum_smul, (C01_partition_of_unity (by norm_num) _).1, one_smul]
  have hm : modeSpace.omega (1, 0, 0) (1, 0, 0) (1, 0, 0) = 1 := by
    change ∫ x in (0:ℝ)..1, (ι (1, 0, 0)).1 x * (ι (1, 0, 0)).1 x * (ι (1, 0, 0)).1 x = 1
    simp [ι_apply]
  have l1 : Spec.load (cfg3 B).S (cfg3 B).D (cfg3 B).D.ind 0 0 Q ((cfg3 B).full.field (cfg3 B).fe y)
      = 1e4 * Q 0 (fun _ => 1) + 1e4 * Q 1 (fun _ => 1) := by
    rw [Spec.load, if_neg (by simp [show (cfg3 B).D.wellPosed = false from hwp]), show (cfg3 B).D.N = 2 from hN,
      show (cfg3 B).D.dt = 1 / 2 from hdt, show (cfg3 B).D.q = 1 from hq, show (cfg3 B).D.gData = 1e4 from hgd,
      show (cfg3 B).D.sol = f from hs, show (cfg3 B).D.ind = _ from hi, sum_range_succ, sum_range_one, add_zero]
    simp only [hval B 0 (by norm_num), hval B 1 (by norm_num), hf]
    rw [show (cfg3 B).S = modeSpace from rfl, hm]
  have l2 : Spec.load (cfg3 B₂).S (cfg3 B₂).D (cfg3 B₂).D.ind 0 0 Q ((cfg3 B₂).full.field (cfg3 B₂).fe y)
      = 1e4 * Q 0 (fun t => if t < 1 / 2 then 0 else 1) + 1e4 * Q 1 (fun _ => 1) := by
    rw [Spec.load, if_neg (by simp [show (cfg3 B₂).D.wellPosed = false from hwp₂]), show (cfg3 B₂).D.N = 2 from hN₂,
      show (cfg3 B₂).D.dt = 1 / 2 from hdt₂, show (cfg3 B₂).D.q = 1 from hq₂, show (cfg3 B₂).D.gData = 1e4 from hgd₂,
      show (cfg3 B₂).D.sol = g from hs₂, show (cfg3 B₂).D.ind = _ from hi₂, sum_range_succ, sum_range_one, add_zero]
    simp only [hval B₂ 0 (by norm_num), hval B₂ 1 (by norm_num), hg]
    congr 2
    · congr 1
      funext t
      split
      · simp
      · exact hm
    · refine ruleOnSlab_local hr (by norm_num) (hQ 1) fun t ht _ => ?_
      rw [if_neg (by norm_num at ht ⊢; linarith)]
      exact hm
  rw [l1, l2] at e4
  have e5 : Q 0 (fun _ => 1) = Q 0 (fun t => if t < 1 / 2 then 0 else 1) := by linarith
  have b1 := C64_quadrature_error hr (by norm_num) (hQ 0) (f := fun _ => 1) continuous_const 1 (by simp)
    (δ := 0) (fun t _ _ => by simp)
  have ec : ∑ k ∈ range 7, |(1 : Polynomial ℝ).coeff k| = 1 := by simp [sum_range_succ, Polynomial.coeff_one]
  have es : Spec.slabInt (1 / 2) 0 (fun _ => 1) = 1 / 2 := by rw [Spec.slabInt]; simp
  rw [ec, es, e5, abs_le] at b1
  -- all points of the first slab lie before `1/2`
  have z : Q 0 (fun t => if t < 1 / 2 then 0 else 1) = 0 := by
    obtain ⟨pts, ws, p1, p2, p3⟩ := hQ 0
    rw [p3]
    obtain hB := (Except.ok.inj hr).symm
    rw [hB] at p1 p2
    simp only [QuadRule.currentPts, QuadRule.tWeights, true_or, if_true, Except.ok.injEq, Option.some.injEq] at p1 p2
    subst p1 p2
    simp only [quadSum, List.map_cons, List.map_nil, List.zipWith_cons_cons, List.zipWith_nil_right, List.sum_cons]
    norm_num
  rw [z] at b1
  norm_num at b1

/-- The positive part applies: changing the solution outside `[0, 1]` and the start time changes nothing. -/
example : ∃ B B₂ w₁ v₁, getSpacetimeRhs (cfg3 B) (runOps (cfg3 B) [.setupFE, .setInitial 0 0] (freshWorld fun _ => 0)) = (.ok .rhs, w₁) ∧
    getSpacetimeRhs (cfg3 B₂) (runOps (cfg3 B₂) [.setupFE, .setInitial 0 0] (freshWorld fun _ => 1)) = (.ok .rhs, v₁) ∧
    B.D.sol 2 ≠ B₂.D.sol 2 ∧ ∀ d < (cfg3 B).full.size, w₁.heap .rhs d = v₁.heap .rhs d := by
  set f : ℝ → V3 := fun _ => (1, 0, 0) with hf
  set g : ℝ → V3 := fun t => if t ≤ 1 then (1, 0, 0) else 0 with hg
  obtain ⟨B, hb, hC, hO, -, -, hs, -⟩ := builtT f
  obtain ⟨B₂, hb₂, hC₂, hO₂, -, -, hs₂, -⟩ := builtT g
  obtain ⟨w₁, h⟩ := getRhs_after (cfg3 B) (fun _ => 0) 0 0 []
  obtain ⟨v₁, h₂⟩ := getRhs_after (cfg3 B₂) (fun _ => 1) 0 0 []
  refine ⟨B, B₂, w₁, v₁, h, h₂, ?_, ?_⟩
  · rw [hs, hs₂, hf, hg]; norm_num
  · exact C69_window_partial (sol₂ := g) (dsol₂ := fun _ => 0) (t₂ := 1 / 2) (by simp [argsT, args3]) (by simp [argsT, args3])
      hb hb₂ (fun s _ h1 => by
        have : s ≤ 1 := by simpa [argsT, args3] using h1
        simp only [hg, if_pos this]; rfl) hC hO hC₂ hO₂ rfl rfl rfl
      (freshWorld_fresh _) (freshWorld_noFail _) (freshWorld_fresh _) (freshWorld_noFail _) 0 0 [] [] (by simp) (by simp) h h₂

end Example
end Dxss
