import Verif.Lemmas.Interp
import Verif.Spec.Rate
import Verif.Props.Apriori
import Verif.Props.StartTime

/-!
# Property C89: rate of convergence in time
-/

namespace Dxss
open Finset
variable {V : Type} [AddCommGroup V] [Module ℝ V]

/-! ### Small coefficients -/

def basisSum (B : V →ₗ[ℝ] V →ₗ[ℝ] ℝ) (fe : FE V) : ℝ := ∑ s ∈ range fe.mP, ∑ r ∈ range fe.mP, |B (fe.bP s) (fe.bP r)|

theorem basisSum_nonneg (B : V →ₗ[ℝ] V →ₗ[ℝ] ℝ) (fe : FE V) : 0 ≤ basisSum B fe :=
  sum_nonneg fun _ _ => sum_nonneg fun _ _ => abs_nonneg _

/-- `v` is a combination of basis functions with coefficients at most `δ`. -/
def Small (fe : FE V) (δ : ℝ) (v : V) : Prop :=
  ∃ α : ℕ → ℝ, (∀ s < fe.mP, |α s| ≤ δ) ∧ v = ∑ s ∈ range fe.mP, α s • fe.bP s

theorem Small.bilin {fe : FE V} {δ : ℝ} {v : V} (h : Small fe δ v) (B : V →ₗ[ℝ] V →ₗ[ℝ] ℝ) : B v v ≤ δ ^ 2 * basisSum B fe := by
  obtain ⟨α, hα, rfl⟩ := h
  simp only [map_sum, LinearMap.sum_apply, map_smul, LinearMap.smul_apply, smul_eq_mul, basisSum, mul_sum]
  rw [sum_comm]
  refine sum_le_sum fun s hs => sum_le_sum fun r hr => ?_
  have h1 := hα s (mem_range.1 hs)
  have h2 := hα r (mem_range.1 hr)
  have h3 : |α r * (α s * B (fe.bP s) (fe.bP r))| ≤ δ ^ 2 * |B (fe.bP s) (fe.bP r)| := by
    rw [abs_mul, abs_mul, ← mul_assoc, sq]
    exact mul_le_mul_of_nonneg_right (mul_le_mul h2 h1 (abs_nonneg _) ((abs_nonneg _).trans h2)) (abs_nonneg _)
  exact (le_abs_self _).trans h3

theorem Small.sub {fe : FE V} {δ δ' : ℝ} {v w : V} (h : Small fe δ v) (h' : Small fe δ' w) : Small fe (δ + δ') (v - w) := by
  obtain ⟨α, hα, rfl⟩ := h
  obtain ⟨β, hβ, rfl⟩ := h'
  refine ⟨fun s => α s - β s, fun s hs => ?_, by simp only [sub_smul, sum_sub_distrib]⟩
  exact (abs_sub _ _).trans (add_le_add (hα s hs) (hβ s hs))

theorem Small.mono {fe : FE V} {δ δ' : ℝ} {v : V} (h : Small fe δ v) (hd : δ ≤ δ') : Small fe δ' v := by
  obtain ⟨α, hα, rfl⟩ := h
  exact ⟨α, fun s hs => (hα s hs).trans hd, rfl⟩

theorem bilin_add_le (B : V →ₗ[ℝ] V →ₗ[ℝ] ℝ) (hB : ∀ v, 0 ≤ B v v) (a b : V) :
    B (a + b) (a + b) ≤ 2 * B a a + 2 * B b b := by
  have := hB (a - b)
  simp only [map_sub, LinearMap.sub_apply, map_add, LinearMap.add_apply] at this ⊢
  linarith

/-- The constant of the density. -/
noncomputable def densConst (S : Space V) (D : Disc V) (g : V →ₗ[ℝ] V →ₗ[ℝ] ℝ) (fe : FE V) : ℝ :=
  1 / D.gDual * (5 * basisSum S.mass fe + basisSum S.stiff fe + 1 / D.lam * basisSum g fe)
    + D.gPrimal * (D.lam * basisSum S.pen fe + basisSum S.ghost fe + 4 * basisSum S.mass fe
      + 2 * basisSum S.h2 fe + 2 * basisSum (S.h2.compl₁₂ S.lap S.lap) fe)

section
variable {S : Space V} {D : Disc V} {g : V →ₗ[ℝ] V →ₗ[ℝ] ℝ} {fe : FE V} {ind : V}

theorem errDens_small (hS : S.Psd ind) (hgd : 0 < D.gDual) (hgp : 0 ≤ D.gPrimal) (hlam : 0 < D.lam) {δ : ℝ} {e1 e2 de1 de2 : V}
    (h1 : Small fe δ e1) (h2 : Small fe δ e2) (h3 : Small fe δ de1) (h4 : Small fe δ de2) :
    Spec.errDens S D g e1 e2 de1 de2 ≤ densConst S D g fe * δ ^ 2 := by
  have a1 := h4.bilin S.mass
  have a2 := h1.bilin S.stiff
  have a3 := h1.bilin g
  have a4 := (h3.sub h2).bilin S.mass
  have a5 := h1.bilin S.pen
  have a6 := h1.bilin S.ghost
  have a7 := (h2.sub h3).bilin S.mass
  have a8 := h4.bilin S.h2
  have a9 := h1.bilin (S.h2.compl₁₂ S.lap S.lap)
  simp only [LinearMap.compl₁₂_apply] at a9
  have b1 : S.h2 (de2 - S.lap e1) (de2 - S.lap e1) ≤ 2 * S.h2 de2 de2 + 2 * S.h2 (S.lap e1) (S.lap e1) := by
    have := bilin_add_le S.h2 hS.h2 de2 (-S.lap e1)
    simpa [sub_eq_add_neg] using this
  have c1 : S.mass de2 de2 + S.stiff e1 e1 + 1 / D.lam * g e1 e1 + S.mass (de1 - e2) (de1 - e2)
      ≤ (5 * basisSum S.mass fe + basisSum S.stiff fe + 1 / D.lam * basisSum g fe) * δ ^ 2 := by
    have := mul_le_mul_of_nonneg_left a3 (one_div_pos.2 hlam).le
    nlinarith
  have c2 : Spec.primalStab S D.lam e1 e2 de1 de2 e1 e2 de1 de2
      ≤ (D.lam * basisSum S.pen fe + basisSum S.ghost fe + 4 * basisSum S.mass fe
        + 2 * basisSum S.h2 fe + 2 * basisSum (S.h2.compl₁₂ S.lap S.lap) fe) * δ ^ 2 := by
    unfold Spec.primalStab
    have := mul_le_mul_of_nonneg_left a5 hlam.le
    nlinarith
  have d1 := mul_le_mul_of_nonneg_left c1 (one_div_pos.2 hgd).le
  have d2 := mul_le_mul_of_nonneg_left c2 hgp
  unfold Spec.errDens densConst
  linarith

theorem errDens_add (hS : S.Psd ind) (hg : ∀ v, 0 ≤ g v v) (hgd : 0 < D.gDual) (hgp : 0 ≤ D.gPrimal) (hlam : 0 < D.lam)
    (a1 a2 a3 a4 b1 b2 b3 b4 : V) :
    Spec.errDens S D g (a1 + b1) (a2 + b2) (a3 + b3) (a4 + b4)
      ≤ 2 * Spec.errDens S D g a1 a2 a3 a4 + 2 * Spec.errDens S D g b1 b2 b3 b4 := by
  have k1 := bilin_add_le S.mass hS.mass a4 b4
  have k2 := bilin_add_le S.stiff hS.stiff a1 b1
  have k3 := mul_le_mul_of_nonneg_left (bilin_add_le g hg a1 b1) (one_div_pos.2 hlam).le
  have k4 := bilin_add_le S.mass hS.mass (a3 - a2) (b3 - b2)
  have k5 := mul_le_mul_of_nonneg_left (bilin_add_le S.pen hS.pen a1 b1) hlam.le
  have k6 := bilin_add_le S.ghost hS.ghost a1 b1
  have k7 := bilin_add_le S.mass hS.mass (a2 - a3) (b2 - b3)
  have k8 := bilin_add_le S.h2 hS.h2 (a4 - S.lap a1) (b4 - S.lap b1)
  have e4 : (a3 - a2) + (b3 - b2) = a3 + b3 - (a2 + b2) := by abel
  have e7 : (a2 - a3) + (b2 - b3) = a2 + b2 - (a3 + b3) := by abel
  have e8 : (a4 - S.lap a1) + (b4 - S.lap b1) = a4 + b4 - S.lap (a1 + b1) := by rw [map_add]; abel
  rw [e4] at k4; rw [e7] at k7; rw [e8] at k8
  have c1 := mul_le_mul_of_nonneg_left (add_le_add (add_le_add (add_le_add k1 k2) k3) k4) (one_div_pos.2 hgd).le
  have c2 := mul_le_mul_of_nonneg_left (add_le_add (add_le_add (add_le_add k5 k6) k7) k8) hgp
  unfold Spec.errDens Spec.primalStab
  linarith

theorem errDens_nonneg (hS : S.Psd ind) (hg : ∀ v, 0 ≤ g v v) (hgd : 0 < D.gDual) (hgp : 0 ≤ D.gPrimal) (hlam : 0 < D.lam)
    (a1 a2 a3 a4 : V) : 0 ≤ Spec.errDens S D g a1 a2 a3 a4 := by
  have := hS.mass a4; have := hS.stiff a1; have := hg a1; have := hS.mass (a3 - a2); have := hS.pen a1; have := hS.ghost a1
  have := hS.mass (a2 - a3); have := hS.h2 (a4 - S.lap a1)
  unfold Spec.errDens Spec.primalStab
  positivity
end

/-- A rule with positive weights on a slab. -/
theorem ruleOnSlab_le {r : QuadRule} (hr : mkQuadRule "Gauss-Radau" 4 = .ok r) {dt : ℝ} (hdt : 0 < dt) {n : ℕ}
    {Q : (ℝ → ℝ) → ℝ} (hQ : RuleOnSlab r dt n Q) {f h : ℝ → ℝ} {c : ℝ}
    (hf : ∀ t ∈ Set.Icc (n * dt) ((n + 1 : ℕ) * dt), f t ≤ 2 * h t + c) : Q f ≤ 2 * Q h + c * dt := by
  classical
  set f' : ℝ → ℝ := fun t => if t ∈ Set.Icc (n * dt) ((n + 1 : ℕ) * dt) then f t else 2 * h t + c with hf'
  have e1 : Q f = Q f' := ruleOnSlab_local hr hdt hQ fun t h1 h2 => by
    rw [hf']; beta_reduce; rw [if_pos ⟨h1, h2⟩]
  have e2 : Q f' ≤ Q (fun t => 2 * h t + c * 1) := ruleOnSlab_mono hr hdt hQ fun t => by
    rw [hf']; beta_reduce
    split
    · rename_i ht; rw [mul_one]; exact hf t ht
    · rw [mul_one]
  have e3 : Q (fun _ => 1) = dt := by
    obtain ⟨pts, ws, h1, h2, h3⟩ := hQ
    obtain rfl := (Except.ok.inj hr).symm
    rw [h3]
    simp only [QuadRule.currentPts, QuadRule.tWeights, true_or, if_true, Except.ok.injEq,
      Option.some.injEq] at h1 h2
    subst h1 h2
    have hlen : ((n + 1 : ℕ) : ℝ) * dt - n * dt = dt := by push_cast; ring
    simp only [quadSum, List.map_cons, List.map_nil, List.zipWith_cons_cons, List.zipWith_nil_right, List.sum_cons, List.sum_nil, hlen]
    ring
  rw [e1]
  refine e2.trans ?_
  rw [ruleOnSlab_add hQ, ruleOnSlab_mul hQ, ruleOnSlab_mul hQ, e3]

/-- Every choice of coefficients belongs to a vector. -/
theorem exists_vec_of_coef {L : FSpace} {m : Fin 4 → ℕ} (hL : L.Ok m) (a : Fin 4 → ℕ → ℕ → ℝ) :
    ∃ x : Vec, ∀ c i s, i < L.nsub c → s < m c → x (L.dof c i s) = a c i s := by
  classical
  refine ⟨fun d => if h : ∃ p : Fin 4 × ℕ × ℕ, p.2.1 < L.nsub p.1 ∧ p.2.2 < m p.1 ∧ L.dof p.1 p.2.1 p.2.2 = d
    then a h.choose.1 h.choose.2.1 h.choose.2.2 else 0, fun c i s hi hs => ?_⟩
  have h : ∃ p : Fin 4 × ℕ × ℕ, p.2.1 < L.nsub p.1 ∧ p.2.2 < m p.1 ∧ L.dof p.1 p.2.1 p.2.2 = L.dof c i s := ⟨(c, i, s), hi, hs, rfl⟩
  beta_reduce
  rw [dif_pos h]
  obtain ⟨h1, h2, h3⟩ := h.choose_spec
  obtain ⟨e1, e2, e3⟩ := hL.inj _ _ _ _ _ _ h1 h2 hi hs h3
  rw [e2, e3]
  rw [e1]

/-- The interpolant exists. -/
theorem exists_interpolant {C : Cfg V} (hC : C.Ok) {q : ℕ} {T M : ℝ} {p : Spec.Path V} {c1 c2 : ℕ → ℕ → ℝ → ℝ}
    (hp : Spec.SmoothPath C.fe q T M p c1 c2) (hq0 : 1 ≤ C.D.q) (hdt : 0 < C.D.dt) (hT : C.D.N * C.D.dt ≤ T) :
    ∃ xs, Spec.Interpolates C.D p (C.full.field C.fe xs) := by
  obtain ⟨xs, hx⟩ := exists_vec_of_coef hC.full (fun c i s => if c = 0 then
      c1 s 0 ((i / (C.D.q + 1) : ℕ) * C.D.dt + (i % (C.D.q + 1) : ℕ) / C.D.q * C.D.dt) else if c = 1 then
      c2 s 0 ((i / (C.D.q + 1) : ℕ) * C.D.dt + (i % (C.D.q + 1) : ℕ) / C.D.q * C.D.dt) else 0)
  have hq' : (0 : ℝ) < C.D.q := by exact_mod_cast hq0
  have idx : ∀ {n j : ℕ}, n < C.D.N → j ≤ C.D.q → n * (C.D.q + 1) + j < (C.D.q + 1) * C.D.N := fun {n j} hn hj =>
    calc n * (C.D.q + 1) + j < n * (C.D.q + 1) + (C.D.q + 1) := by omega
      _ = (C.D.q + 1) * (n + 1) := by ring
      _ ≤ _ := Nat.mul_le_mul_left _ hn
  have dm : ∀ {n j : ℕ}, j ≤ C.D.q → (n * (C.D.q + 1) + j) / (C.D.q + 1) = n ∧ (n * (C.D.q + 1) + j) % (C.D.q + 1) = j := fun {n j} hj => by
    rw [mul_comm, Nat.mul_add_div (by omega), Nat.mul_add_mod, Nat.div_eq_of_lt (by omega), Nat.mod_eq_of_lt (by omega)]
    simp
  have tm : ∀ {n j : ℕ}, n < C.D.N → j ≤ C.D.q → (n * C.D.dt + (j : ℝ) / C.D.q * C.D.dt) ∈ Set.Icc 0 T := fun {n j} hn hj => by
    have h1 : (j : ℝ) / C.D.q ≤ 1 := by rw [div_le_one hq']; exact_mod_cast hj
    have h2 : (n : ℝ) + 1 ≤ C.D.N := by exact_mod_cast hn
    refine ⟨by positivity, le_trans ?_ hT⟩
    calc n * C.D.dt + (j : ℝ) / C.D.q * C.D.dt ≤ n * C.D.dt + 1 * C.D.dt := by gcongr
      _ = (n + 1) * C.D.dt := by ring
      _ ≤ C.D.N * C.D.dt := by gcongr
  have s0 : C.full.nsub 0 = (C.D.q + 1) * C.D.N := by rw [hC.fullN]; rfl
  have s1 : C.full.nsub 1 = (C.D.q + 1) * C.D.N := by rw [hC.fullN]; rfl
  refine ⟨xs, fun n hn j hj => ?_, fun n hn j hj => ?_, fun i => ?_, fun i => ?_⟩
  · have hi := idx hn hj
    rw [FSpace.field, if_pos ⟨by positivity, by rw [s0]; exact_mod_cast hi⟩, hp.u1 _ (tm hn hj)]
    refine sum_congr rfl fun s hs => ?_
    have e : ((n : ℤ) * ((C.D.q : ℤ) + 1) + (j : ℤ)).toNat = n * (C.D.q + 1) + j := by
      have : ((n : ℤ) * ((C.D.q : ℤ) + 1) + (j : ℤ)) = ((n * (C.D.q + 1) + j : ℕ) : ℤ) := by push_cast; ring
      rw [this, Int.toNat_natCast]
    rw [e, hx 0 _ s (by rw [s0]; exact hi) (mem_range.1 hs), if_pos rfl, (dm hj).1, (dm hj).2]; rfl
  · have hi := idx hn hj
    rw [FSpace.field, if_pos ⟨by positivity, by rw [s1]; exact_mod_cast hi⟩, hp.u2 _ (tm hn hj)]
    refine sum_congr rfl fun s hs => ?_
    have e : ((n : ℤ) * ((C.D.q : ℤ) + 1) + (j : ℤ)).toNat = n * (C.D.q + 1) + j := by
      have : ((n : ℤ) * ((C.D.q : ℤ) + 1) + (j : ℤ)) = ((n * (C.D.q + 1) + j : ℕ) : ℤ) := by push_cast; ring
      rw [this, Int.toNat_natCast]
    rw [e, hx 1 _ s (by rw [s1]; exact hi) (mem_range.1 hs), if_neg (by decide), if_pos rfl, (dm hj).1, (dm hj).2]; rfl
  · rw [FSpace.field]
    split
    · rename_i h
      refine sum_eq_zero fun s hs => ?_
      rw [hx 2 _ s (by omega) (mem_range.1 hs), if_neg (by decide), if_neg (by decide), zero_smul]
    · rfl
  · rw [FSpace.field]
    split
    · rename_i h
      refine sum_eq_zero fun s hs => ?_
      rw [hx 3 _ s (by omega) (mem_range.1 hs), if_neg (by decide), if_neg (by decide), zero_smul]
    · rfl

/-! ### The interpolant is close -/

theorem coef_small {fe : FE V} {q : ℕ} (hq : q ≤ 3) (hq0 : 1 ≤ q) {dt : ℝ} (hdt : 0 < dt) (n : ℕ) {c : ℕ → ℕ → ℝ → ℝ} {T M : ℝ}
    (hc : ∀ s < fe.mP, Chain (q + 1) 0 T (c s)) (hM : ∀ s < fe.mP, ∀ t ∈ Set.Icc 0 T, |c s (q + 1) t| ≤ M)
    (hn : ((n + 1 : ℕ) : ℝ) * dt ≤ T) {F : ℤ → V}
    (hF : ∀ j ≤ q, F (n * (q + 1) + j) = ∑ s ∈ range fe.mP, c s 0 (n * dt + j / q * dt) • fe.bP s)
    {t : ℝ} (ht : t ∈ Set.Icc (n * dt) ((n + 1 : ℕ) * dt)) :
    Small fe (M * dt ^ (q + 1)) (∑ s ∈ range fe.mP, c s 0 t • fe.bP s - Spec.val q dt n F t) ∧
    Small fe (M * dt ^ q) (∑ s ∈ range fe.mP, c s 1 t • fe.bP s - Spec.valDt q dt n F t) := by
  have hsub : Set.Icc (n * dt) (((n + 1 : ℕ) : ℝ) * dt) ⊆ Set.Icc 0 T := Set.Icc_subset_Icc (by positivity) hn
  have key := fun s (hs : s < fe.mP) => interp_error hq hq0 hdt n ((hc s hs).mono le_rfl hsub)
    (fun t ht => hM s hs t (hsub ht)) t ht
  have swap : ∀ f : ℕ → ℝ → ℝ, comb (q + 1) f (blk q n F) t
      = ∑ s ∈ range fe.mP, (∑ j ∈ range (q + 1), f j t * c s 0 (n * dt + j / q * dt)) • fe.bP s := by
    intro f
    simp only [comb, sum_smul]
    rw [sum_comm]
    refine sum_congr rfl fun j hj => ?_
    rw [blk, hF j (Nat.lt_succ_iff.1 (mem_range.1 hj)), smul_sum]
    simp only [smul_smul]
  rw [val_eq, valDt_eq hq, swap, swap]
  refine ⟨⟨_, fun s hs => (key s hs).1, ?_⟩, ⟨_, fun s hs => (key s hs).2, ?_⟩⟩
  · simp only [sub_smul, sum_sub_distrib]
  · simp only [sub_smul, sum_sub_distrib]

section
variable {S : Space V} {D : Disc V} {g : V →ₗ[ℝ] V →ₗ[ℝ] ℝ} {fe : FE V} {ind : V}
  {T M : ℝ} {p : Spec.Path V} {c1 c2 : ℕ → ℕ → ℝ → ℝ} {X : Field V}

/-- All errors of the interpolant are small. -/
theorem interpolant_small (hq : D.q ≤ 3) (hq0 : 1 ≤ D.q) (hdt : 0 < D.dt) (hT : D.N * D.dt = T) (hM : 0 ≤ M)
    (hp : Spec.SmoothPath fe D.q T M p c1 c2) (hX : Spec.Interpolates D p X) {n : ℕ} (hn : n < D.N) {t : ℝ}
    (ht : t ∈ Set.Icc (n * D.dt) ((n + 1 : ℕ) * D.dt)) :
    Small fe (max 1 T * M * D.dt ^ D.q) (p.u1 t - Spec.val D.q D.dt n (X 0) t) ∧
    Small fe (max 1 T * M * D.dt ^ D.q) (p.u2 t - Spec.val D.q D.dt n (X 1) t) ∧
    Small fe (max 1 T * M * D.dt ^ D.q) (p.du1 t - Spec.valDt D.q D.dt n (X 0) t) ∧
    Small fe (max 1 T * M * D.dt ^ D.q) (p.du2 t - Spec.valDt D.q D.dt n (X 1) t) := by
  have hn' : ((n + 1 : ℕ) : ℝ) ≤ D.N := by exact_mod_cast hn
  have hnT : ((n + 1 : ℕ) : ℝ) * D.dt ≤ T := by rw [← hT]; gcongr
  have hN1 : (1 : ℝ) ≤ D.N := by exact_mod_cast (show 1 ≤ D.N by omega)
  have hdT : D.dt ≤ T := by rw [← hT]; nlinarith
  have hsub : Set.Icc (n * D.dt) (((n + 1 : ℕ) : ℝ) * D.dt) ⊆ Set.Icc 0 T := Set.Icc_subset_Icc (by positivity) hnT
  have hq' : (0 : ℝ) < D.q := by exact_mod_cast hq0
  have node : ∀ j ≤ D.q, (n * D.dt + (j : ℝ) / D.q * D.dt) ∈ Set.Icc 0 T := fun j hj => by
    have h1 : (j : ℝ) / D.q ≤ 1 := by rw [div_le_one hq']; exact_mod_cast hj
    refine ⟨by positivity, le_trans ?_ hnT⟩
    push_cast
    nlinarith
  have k1 := coef_small hq hq0 hdt n (fun s hs => (hp.chain s hs).1) (fun s hs t ht => (hp.bound s hs t ht).1) hnT
    (fun j hj => (hX.u1 n hn j hj).trans (hp.u1 _ (node j hj))) ht
  have k2 := coef_small hq hq0 hdt n (fun s hs => (hp.chain s hs).2) (fun s hs t ht => (hp.bound s hs t ht).2) hnT
    (fun j hj => (hX.u2 n hn j hj).trans (hp.u2 _ (node j hj))) ht
  rw [← hp.u1 t (hsub ht), ← hp.du1 t (hsub ht)] at k1
  rw [← hp.u2 t (hsub ht), ← hp.du2 t (hsub ht)] at k2
  have hMd : 0 ≤ M * D.dt ^ D.q := by positivity
  have b1 : M * D.dt ^ (D.q + 1) ≤ max 1 T * M * D.dt ^ D.q := by
    have : D.dt ≤ max 1 T := hdT.trans (le_max_right _ _)
    rw [pow_succ]
    nlinarith
  have b2 : M * D.dt ^ D.q ≤ max 1 T * M * D.dt ^ D.q := by
    have : (1 : ℝ) ≤ max 1 T := le_max_left _ _
    nlinarith
  exact ⟨k1.1.mono b1, k2.1.mono b1, k1.2.mono b2, k2.2.mono b2⟩

/-- The interpolant has no jumps. -/
theorem interpolant_jump (hq : D.q ≤ 3) (hq0 : 1 ≤ D.q) (hdt : 0 < D.dt) (hX : Spec.Interpolates D p X) {n : ℕ} (hn : n < D.N)
    (h0 : n ≠ 0) : Spec.jump D.q D.dt n (X 0) = 0 ∧ Spec.jump D.q D.dt n (X 1) = 0 := by
  have hpos : 0 < n := Nat.pos_of_ne_zero h0
  have hq' : (D.q : ℝ) ≠ 0 := by exact_mod_cast (show D.q ≠ 0 by omega)
  have ei : ((n : ℤ) * (D.q + 1) - 1) = ((n - 1 : ℕ) : ℤ) * (D.q + 1) + (D.q : ℕ) := by
    rw [Nat.cast_sub hpos]; push_cast; ring
  have ej : ((n : ℤ) * (D.q + 1)) = ((n : ℕ) : ℤ) * (D.q + 1) + ((0 : ℕ) : ℤ) := by push_cast; ring
  have et : ((n - 1 : ℕ) : ℝ) * D.dt + (D.q : ℝ) / D.q * D.dt = n * D.dt + ((0 : ℕ) : ℝ) / D.q * D.dt := by
    rw [Nat.cast_sub hpos, div_self hq']; push_cast; ring
  unfold Spec.jump
  rw [val_bottom hq, val_top hq hdt.ne' hpos, val_bottom hq, val_top hq hdt.ne' hpos, ei, ej,
    hX.u1 n hn 0 (Nat.zero_le _), hX.u2 n hn 0 (Nat.zero_le _), hX.u1 (n - 1) (by omega) D.q le_rfl,
    hX.u2 (n - 1) (by omega) D.q le_rfl, et]
  simp

theorem interpolant_initial (hq : D.q ≤ 3) (hN : 0 < D.N) (hX : Spec.Interpolates D p X) :
    X 0 0 = p.u1 0 ∧ Spec.val D.q D.dt 0 (X 0) 0 = p.u1 0 ∧ Spec.val D.q D.dt 0 (X 1) 0 = p.u2 0 := by
  have h1 := hX.u1 0 hN 0 (Nat.zero_le _)
  have h2 := hX.u2 0 hN 0 (Nat.zero_le _)
  have b1 := val_bottom hq D.dt 0 (X 0)
  have b2 := val_bottom hq D.dt 0 (X 1)
  simp only [Nat.cast_zero, zero_mul, zero_add, zero_div] at h1 h2 b1 b2
  exact ⟨h1, b1.trans h1, b2.trans h2⟩

/-- The constant of the rate. -/
noncomputable def rateConst (S : Space V) (D : Disc V) (ind : V) (g : V →ₗ[ℝ] V →ₗ[ℝ] ℝ) (fe : FE V) : ℝ :=
  densConst S D g fe + D.gData * basisSum (S.omega ind) fe

theorem dist_interpolant (hS : S.Psd ind) (hP : D.Positive) (hlam : 0 < D.lam) (hg : ∀ v, 0 ≤ g v v)
    (hq : D.q ≤ 3) (hq0 : 1 ≤ D.q) (hT : D.N * D.dt = T) (hM : 0 ≤ M)
    (hp : Spec.SmoothPath fe D.q T M p c1 c2) (hX : Spec.Interpolates D p X) {r : QuadRule}
    (hr : mkQuadRule "Gauss-Radau" 4 = .ok r) {Q : ℕ → (ℝ → ℝ) → ℝ} (hQ : ∀ n < D.N, RuleOnSlab r D.dt n (Q n)) {u : Spec.Path V}
    (hi : ∀ n < D.N, IntervalIntegrable (fun t => Spec.errDens S D g (u.u1 t - p.u1 t) (u.u2 t - p.u2 t) (u.du1 t - p.du1 t)
      (u.du2 t - p.du2 t)) MeasureTheory.volume (n * D.dt) ((n + 1 : ℕ) * D.dt))
    (hint : ∀ n < D.N, IntervalIntegrable (Spec.distDens S D (fun v => g v v) u X n) MeasureTheory.volume
      (n * D.dt) ((n + 1 : ℕ) * D.dt)) :
    Spec.dist S D ind (fun v => g v v) Q u X
      ≤ 2 * Spec.pathDist S D ind g Q u p + 2 * rateConst S D ind g fe * T * (max 1 T * M * D.dt ^ D.q) ^ 2 := by
  have hdt := hP.dt
  set δ := max 1 T * M * D.dt ^ D.q with hδ
  have hT' : 2 * rateConst S D ind g fe * T * δ ^ 2
      = ∑ n ∈ range D.N, 2 * rateConst S D ind g fe * δ ^ 2 * D.dt := by
    rw [sum_const, card_range, nsmul_eq_mul, ← hT]; ring
  rw [hT', Spec.dist, Spec.pathDist, mul_sum, ← sum_add_distrib]
  refine sum_le_sum fun n hn => ?_
  have hn := mem_range.1 hn
  have hle : (n : ℝ) * D.dt ≤ ((n + 1 : ℕ) : ℝ) * D.dt := by push_cast; nlinarith
  have sm := fun {t : ℝ} (ht : t ∈ Set.Icc (n * D.dt) (((n + 1 : ℕ) : ℝ) * D.dt)) =>
    interpolant_small hq hq0 hdt hT hM hp hX hn ht
  have len : ((n + 1 : ℕ) : ℝ) * D.dt - n * D.dt = D.dt := by push_cast; ring
  -- the densities
  have i1 : Spec.slabInt D.dt n (Spec.distDens S D (fun v => g v v) u X n)
      ≤ 2 * Spec.slabInt D.dt n (fun t => Spec.errDens S D g (u.u1 t - p.u1 t) (u.u2 t - p.u2 t) (u.du1 t - p.du1 t) (u.du2 t - p.du2 t))
        + 2 * densConst S D g fe * δ ^ 2 * D.dt := by
    unfold Spec.slabInt
    have : 2 * densConst S D g fe * δ ^ 2 * D.dt
        = ∫ _ in (n * D.dt)..(((n + 1 : ℕ) : ℝ) * D.dt), 2 * densConst S D g fe * δ ^ 2 := by
      rw [intervalIntegral.integral_const, len, smul_eq_mul]; ring
    rw [this, ← intervalIntegral.integral_const_mul,
      ← intervalIntegral.integral_add ((hi n hn).const_mul 2) intervalIntegrable_const]
    refine intervalIntegral.integral_mono_on hle (hint n hn) (((hi n hn).const_mul 2).add intervalIntegrable_const) fun t ht => ?_
    obtain ⟨s1, s2, s3, s4⟩ := sm ht
    have e := errDens_add hS hg hP.dual hP.primal.le hlam (u.u1 t - p.u1 t) (u.u2 t - p.u2 t) (u.du1 t - p.du1 t) (u.du2 t - p.du2 t)
      (p.u1 t - Spec.val D.q D.dt n (X 0) t) (p.u2 t - Spec.val D.q D.dt n (X 1) t)
      (p.du1 t - Spec.valDt D.q D.dt n (X 0) t) (p.du2 t - Spec.valDt D.q D.dt n (X 1) t)
    simp only [sub_add_sub_cancel] at e
    have e' := errDens_small (g := g) hS hP.dual hP.primal.le hlam s1 s2 s3 s4
    have : Spec.distDens S D (fun v => g v v) u X n t = Spec.errDens S D g (u.u1 t - Spec.val D.q D.dt n (X 0) t)
      (u.u2 t - Spec.val D.q D.dt n (X 1) t) (u.du1 t - Spec.valDt D.q D.dt n (X 0) t) (u.du2 t - Spec.valDt D.q D.dt n (X 1) t) := rfl
    rw [this]
    linarith
  -- the data
  have i2 : Q n (fun t => S.omega ind (u.u1 t - Spec.val D.q D.dt n (X 0) t) (u.u1 t - Spec.val D.q D.dt n (X 0) t))
      ≤ 2 * Q n (fun t => S.omega ind (u.u1 t - p.u1 t) (u.u1 t - p.u1 t)) + 2 * basisSum (S.omega ind) fe * δ ^ 2 * D.dt := by
    refine ruleOnSlab_le hr hdt (hQ n hn) fun t ht => ?_
    have e := bilin_add_le (S.omega ind) hS.omega (u.u1 t - p.u1 t) (p.u1 t - Spec.val D.q D.dt n (X 0) t)
    rw [sub_add_sub_cancel] at e
    have e' := (sm ht).1.bilin (S.omega ind)
    linarith
  have i2' := mul_le_mul_of_nonneg_left i2 hP.data
  have i3 : (if n = 0 then
        if D.wellPosed then D.gJump * Spec.jumpForm S D.dt (u.u1 0 - Spec.val D.q D.dt 0 (X 0) 0) (u.u2 0 - Spec.val D.q D.dt 0 (X 1) 0)
          (u.u1 0 - Spec.val D.q D.dt 0 (X 0) 0) (u.u2 0 - Spec.val D.q D.dt 0 (X 1) 0) else 0
      else
        D.gJump * Spec.jumpForm S D.dt (Spec.jump D.q D.dt n (X 0)) (Spec.jump D.q D.dt n (X 1))
          (Spec.jump D.q D.dt n (X 0)) (Spec.jump D.q D.dt n (X 1))
        + if D.jumpsFw then (1 + D.eps) ^ 2 / (D.gDual * D.dt) *
            (S.mass (Spec.jump D.q D.dt n (X 0)) (Spec.jump D.q D.dt n (X 0)) + S.mass (Spec.jump D.q D.dt n (X 1)) (Spec.jump D.q D.dt n (X 1)))
          else 0)
      ≤ 2 * if n = 0 ∧ D.wellPosed then D.gJump * Spec.jumpForm S D.dt (u.u1 0 - p.u1 0) (u.u2 0 - p.u2 0)
        (u.u1 0 - p.u1 0) (u.u2 0 - p.u2 0) else 0 := by
    by_cases h0 : n = 0
    · rw [if_pos h0]
      by_cases hw : D.wellPosed = true
      · rw [if_pos hw, if_pos ⟨h0, hw⟩]
        obtain ⟨-, a2, a3⟩ := interpolant_initial hq (by omega) hX
        rw [a2, a3]
        have := hS.mass (u.u1 0 - p.u1 0); have := hS.stiff (u.u1 0 - p.u1 0); have := hS.mass (u.u2 0 - p.u2 0)
        have hj := hP.jump
        have : 0 ≤ D.gJump * Spec.jumpForm S D.dt (u.u1 0 - p.u1 0) (u.u2 0 - p.u2 0) (u.u1 0 - p.u1 0) (u.u2 0 - p.u2 0) := by
          unfold Spec.jumpForm; positivity
        linarith
      · rw [if_neg hw, if_neg (fun h => hw h.2)]; simp
    · rw [if_neg h0, if_neg (show ¬ (n = 0 ∧ D.wellPosed = true) from fun h => h0 h.1)]
      obtain ⟨j1, j2⟩ := interpolant_jump hq hq0 hdt hX hn h0
      rw [j1, j2]
      simp [Spec.jumpForm]
  unfold rateConst
  linarith
end

/-! ### Continuity -/

/-- Finite combinations of vectors with coefficients continuous on `I`. -/
inductive CombOn (I : Set ℝ) : (ℝ → V) → Prop
  | zero : CombOn I fun _ => 0
  | smul {α : ℝ → ℝ} (h : ContinuousOn α I) (v : V) : CombOn I fun t => α t • v
  | add {f g : ℝ → V} : CombOn I f → CombOn I g → CombOn I fun t => f t + g t
  | congr {f g : ℝ → V} : CombOn I f → (∀ t ∈ I, g t = f t) → CombOn I g

namespace CombOn
variable {I : Set ℝ} {f g : ℝ → V}

theorem sum {ι : Type} (s : Finset ι) {F : ι → ℝ → V} (h : ∀ i ∈ s, CombOn I (F i)) : CombOn I fun t => ∑ i ∈ s, F i t := by
  classical
  induction s using Finset.induction_on with
  | empty => simpa using CombOn.zero
  | insert i s hi ih =>
    simp only [sum_insert hi]
    exact .add (h i (mem_insert_self _ _)) (ih fun j hj => h j (mem_insert_of_mem hj))

theorem map (L : V →ₗ[ℝ] V) (h : CombOn I f) : CombOn I fun t => L (f t) := by
  induction h with
  | zero => simpa using CombOn.zero
  | smul hα v => simpa using CombOn.smul hα (L v)
  | add _ _ ih1 ih2 => simpa using CombOn.add ih1 ih2
  | congr _ he ih => exact .congr ih fun t ht => by rw [he t ht]

theorem sub (h : CombOn I f) (h' : CombOn I g) : CombOn I fun t => f t - g t := by
  refine .congr (.add h (h'.map (-LinearMap.id))) fun t _ => ?_
  simp [sub_eq_add_neg]

theorem right (L : V →ₗ[ℝ] ℝ) (h : CombOn I f) : ContinuousOn (fun t => L (f t)) I := by
  induction h with
  | zero => simpa using continuousOn_const
  | smul hα v => simpa using hα.fun_mul continuousOn_const
  | add _ _ ih1 ih2 => simpa using ih1.fun_add ih2
  | congr _ he ih => exact ih.congr fun t ht => by rw [he t ht]

theorem bilin (B : V →ₗ[ℝ] V →ₗ[ℝ] ℝ) (h : CombOn I f) (h' : CombOn I g) : ContinuousOn (fun t => B (f t) (g t)) I := by
  induction h with
  | zero => simpa using continuousOn_const
  | smul hα v => simpa using hα.fun_mul (h'.right (B v))
  | add _ _ ih1 ih2 => simpa using ih1.fun_add ih2
  | congr _ he ih => exact ih.congr fun t ht => by rw [he t ht]
end CombOn

theorem combOn_val {q : ℕ} (hq : q ≤ 3) (dt : ℝ) (n : ℕ) (I : Set ℝ) (F : ℤ → V) :
    CombOn I (Spec.val q dt n F) ∧ CombOn I (Spec.valDt q dt n F) := by
  rw [val_eq, valDt_eq hq]
  exact ⟨CombOn.sum _ fun j hj => .smul (continuous_phiT hq j (mem_range.1 hj)).continuousOn _,
    CombOn.sum _ fun j hj => .smul (continuous_dphiT hq j (mem_range.1 hj)).continuousOn _⟩

theorem Spec.SmoothPath.combOn {fe : FE V} {q : ℕ} (hq0 : 1 ≤ q) {T M : ℝ} {p : Spec.Path V} {c1 c2 : ℕ → ℕ → ℝ → ℝ}
    (hp : Spec.SmoothPath fe q T M p c1 c2) {I : Set ℝ} (hI : I ⊆ Set.Icc 0 T) :
    CombOn I p.u1 ∧ CombOn I p.u2 ∧ CombOn I p.du1 ∧ CombOn I p.du2 := by
  have c : ∀ {c : ℕ → ℕ → ℝ → ℝ} {k : ℕ}, k ≤ 1 → (∀ s < fe.mP, Chain (q + 1) 0 T (c s)) →
      CombOn I fun t => ∑ s ∈ range fe.mP, c s k t • fe.bP s := fun hk h =>
    CombOn.sum _ fun s hs => .smul (fun t ht => (h s (mem_range.1 hs) _ (by omega) t (hI ht)).continuousAt.continuousWithinAt) _
  exact ⟨.congr (c zero_le_one fun s hs => (hp.chain s hs).1) fun t ht => hp.u1 t (hI ht),
    .congr (c zero_le_one fun s hs => (hp.chain s hs).2) fun t ht => hp.u2 t (hI ht),
    .congr (c le_rfl fun s hs => (hp.chain s hs).1) fun t ht => hp.du1 t (hI ht),
    .congr (c le_rfl fun s hs => (hp.chain s hs).2) fun t ht => hp.du2 t (hI ht)⟩

theorem errDens_contOn (S : Space V) (D : Disc V) (g : V →ₗ[ℝ] V →ₗ[ℝ] ℝ) {I : Set ℝ} {e1 e2 de1 de2 : ℝ → V}
    (h1 : CombOn I e1) (h2 : CombOn I e2) (h3 : CombOn I de1) (h4 : CombOn I de2) :
    ContinuousOn (fun t => Spec.errDens S D g (e1 t) (e2 t) (de1 t) (de2 t)) I := by
  unfold Spec.errDens Spec.primalStab
  have k := h4.sub (h1.map S.lap)
  exact (continuousOn_const.mul ((((h4.bilin S.mass h4).add (h1.bilin S.stiff h1)).add
    (continuousOn_const.mul (h1.bilin g h1))).add ((h3.sub h2).bilin S.mass (h3.sub h2)))).add
    (continuousOn_const.mul ((((continuousOn_const.mul (h1.bilin S.pen h1)).add (h1.bilin S.ghost h1)).add
      ((h2.sub h3).bilin S.mass (h2.sub h3))).add (k.bilin S.h2 k)))

/-! ### The rate -/

theorem densConst_nonneg {S : Space V} {D : Disc V} (hP : D.Positive) (g : V →ₗ[ℝ] V →ₗ[ℝ] ℝ) (fe : FE V) :
    0 ≤ densConst S D g fe := by
  have h1 := hP.dual; have h2 := hP.primal; have h3 := hP.lam
  have := basisSum_nonneg S.mass fe; have := basisSum_nonneg S.stiff fe; have := basisSum_nonneg g fe
  have := basisSum_nonneg S.pen fe; have := basisSum_nonneg S.ghost fe; have := basisSum_nonneg S.h2 fe
  have := basisSum_nonneg (S.h2.compl₁₂ S.lap S.lap) fe
  unfold densConst; positivity

theorem rateConst_nonneg {S : Space V} {D : Disc V} (hP : D.Positive) (ind : V) (g : V →ₗ[ℝ] V →ₗ[ℝ] ℝ) (fe : FE V) :
    0 ≤ rateConst S D ind g fe :=
  add_nonneg (densConst_nonneg hP g fe) (mul_nonneg hP.data (basisSum_nonneg _ fe))

/-- The data energy of the interpolant. -/
theorem data_interpolant {S : Space V} {D : Disc V} {g : V →ₗ[ℝ] V →ₗ[ℝ] ℝ} {fe : FE V} {ind : V}
    {T M P : ℝ} {p : Spec.Path V} {c1 c2 : ℕ → ℕ → ℝ → ℝ} {X : Field V} (hS : S.Psd ind) (hP : D.Positive)
    (hq : D.q ≤ 3) (hq0 : 1 ≤ D.q) (hT : D.N * D.dt = T) (hM : 0 ≤ M)
    (hp : Spec.SmoothPath fe D.q T M p c1 c2) (hX : Spec.Interpolates D p X)
    (hb : ∀ t ∈ Set.Icc 0 T, S.omega ind (p.u1 t) (p.u1 t) ≤ P) :
    ∑ n ∈ range D.N, D.gData * Spec.slabInt D.dt n (fun t => S.omega ind (Spec.val D.q D.dt n (X 0) t) (Spec.val D.q D.dt n (X 0) t))
      ≤ 2 * D.gData * P * T + 2 * rateConst S D ind g fe * T * (max 1 T * M * D.dt ^ D.q) ^ 2 := by
  have hdt := hP.dt
  set δ := max 1 T * M * D.dt ^ D.q with hδ
  have hT' : 2 * D.gData * P * T + 2 * rateConst S D ind g fe * T * δ ^ 2
      = ∑ n ∈ range D.N, (2 * D.gData * P * D.dt + 2 * rateConst S D ind g fe * δ ^ 2 * D.dt) := by
    rw [sum_const, card_range, nsmul_eq_mul, ← hT]; ring
  rw [hT']
  refine sum_le_sum fun n hn => ?_
  have hn := mem_range.1 hn
  have hn' : ((n + 1 : ℕ) : ℝ) ≤ D.N := by exact_mod_cast hn
  have hnT : ((n + 1 : ℕ) : ℝ) * D.dt ≤ T := by rw [← hT]; gcongr
  have hsub : Set.Icc (n * D.dt) (((n + 1 : ℕ) : ℝ) * D.dt) ⊆ Set.Icc 0 T := Set.Icc_subset_Icc (by positivity) hnT
  have hle : (n : ℝ) * D.dt ≤ ((n + 1 : ℕ) : ℝ) * D.dt := by push_cast; nlinarith
  have len : ((n + 1 : ℕ) : ℝ) * D.dt - n * D.dt = D.dt := by push_cast; ring
  have cv := (combOn_val (V := V) hq D.dt n (Set.uIcc (n * D.dt) (((n + 1 : ℕ) : ℝ) * D.dt)) (X 0)).1
  have i1 : Spec.slabInt D.dt n (fun t => S.omega ind (Spec.val D.q D.dt n (X 0) t) (Spec.val D.q D.dt n (X 0) t))
      ≤ (2 * P + 2 * (δ ^ 2 * basisSum (S.omega ind) fe)) * D.dt := by
    unfold Spec.slabInt
    have : (2 * P + 2 * (δ ^ 2 * basisSum (S.omega ind) fe)) * D.dt
        = ∫ _ in (n * D.dt)..(((n + 1 : ℕ) : ℝ) * D.dt), (2 * P + 2 * (δ ^ 2 * basisSum (S.omega ind) fe)) := by
      rw [intervalIntegral.integral_const, len, smul_eq_mul]; ring
    rw [this]
    refine intervalIntegral.integral_mono_on hle (cv.bilin _ cv).intervalIntegrable intervalIntegrable_const fun t ht => ?_
    have sm := (interpolant_small hq hq0 hdt hT hM hp hX hn ht).1.bilin (S.omega ind)
    have e := bilin_add_le (S.omega ind) hS.omega (p.u1 t) (-(p.u1 t - Spec.val D.q D.dt n (X 0) t))
    have e1 : p.u1 t + -(p.u1 t - Spec.val D.q D.dt n (X 0) t) = Spec.val D.q D.dt n (X 0) t := by abel
    rw [e1] at e
    simp only [map_neg, LinearMap.neg_apply, neg_neg] at e
    have := hb t (hsub ht)
    linarith
  have i2 := mul_le_mul_of_nonneg_left i1 hP.data
  have k := mul_nonneg (densConst_nonneg hP g fe (S := S)) (mul_nonneg (sq_nonneg δ) hdt.le)
  unfold rateConst
  nlinarith only [i2, k]

/-- The estimate for one discretisation, with the constant. -/
theorem rate_at {interp : V →ₗ[ℝ] V} {a : Args V} {om om' : DataDomain V} {B : Built V}
    (hb : construct interp a om = (.ok B, om')) {C : Cfg V} (hC : C.Ok) (hB : C.OfBuilt B) (hS : C.S.Psd C.D.ind)
    (hp : C.D.Positive) (hlam : 0 < C.D.lam) (hN : 0 < C.D.N) (hq0 : 1 ≤ C.D.q)
    {K : ℝ} (ho : C.Observable K) (hK : K * ((1e-20) ^ 2 * (C.D.qstar + 1) ^ 2) ≤ 1e-2 * (C.D.gDual * C.D.dt))
    {g : V →ₗ[ℝ] V →ₗ[ℝ] ℝ} (hg0 : ∀ v, 0 ≤ g v v) (hg : ∀ v y, C.S.nit v y ^ 2 ≤ g v v * C.S.pen y y)
    {T : ℝ} (hT : C.D.N * C.D.dt = T)
    {u : Spec.Path V} (hu : Spec.WaveSolution C.S C.fe.dual u (Set.Icc 0 T)) (hdata : ∀ t, C.D.sol t = u.u1 t)
    {p : Spec.Path V} {c1 c2 : ℕ → ℕ → ℝ → ℝ} {M P : ℝ} (hM : 0 ≤ M) (hP : Spec.SmoothPath C.fe C.D.q T M p c1 c2)
    (hPb : ∀ t ∈ Set.Icc 0 T, C.S.omega C.D.ind (p.u1 t) (p.u1 t) ≤ P)
    (hi : ∀ n < C.D.N, IntervalIntegrable (fun t => Spec.errDens C.S C.D g (u.u1 t - p.u1 t) (u.u2 t - p.u2 t) (u.du1 t - p.du1 t)
      (u.du2 t - p.du2 t)) MeasureTheory.volume (n * C.D.dt) ((n + 1 : ℕ) * C.D.dt))
    (hint : ∀ X : Field V, ∀ n < C.D.N, IntervalIntegrable (Spec.distDens C.S C.D (fun v => g v v) u X n) MeasureTheory.volume
      (n * C.D.dt) ((n + 1 : ℕ) * C.D.dt))
    {w₀ : World V} (h₀ : w₀.Fresh) (hf : w₀.NoFail) (ops ops' : List (Op V))
    (hops : ∀ op ∈ ops, ¬ op.WritesInitial) {r : Ref} {w₁ : World V}
    (hrhs : getSpacetimeRhs C (runOps C (.setupFE :: .setInitial (u.u1 0) (u.u2 0) :: ops) w₀) = (.ok r, w₁))
    {v₀ : World V} (g₀ : v₀.Fresh) (hops' : ∀ op ∈ ops', ¬ op.OtherFlag false) {A : Mat} {v₁ : World V}
    (hmat : getSpacetimeMatrix C false (runOps C ops' v₀) = (.ok A, v₁))
    {Q : ℕ → (ℝ → ℝ) → ℝ} (hQ : ∀ n < C.D.N, RuleOnSlab B.qr C.D.dt n (Q n))
    (x : Vec) (hx : ∀ d < C.full.size, A.mult x d = w₁.heap r d) :
    ∃ xs, Spec.Interpolates C.D p (C.full.field C.fe xs) ∧
      Spec.energy C.S C.D C.D.ind (C.full.field C.fe x - C.full.field C.fe xs)
        ≤ 7 * rateConst C.S C.D C.D.ind g C.fe * T * max 1 T ^ 2 * M ^ 2 * C.D.dt ^ (2 * C.D.q)
          + 6 * Spec.pathDist C.S C.D C.D.ind g Q u p
          + 6 * ((2e-5) ^ 2 * (2 * C.D.gData * P * T)
            + (1e-20) ^ 2 * (C.D.qstar + 1) ^ 2 / (C.D.gDual * C.D.dt) * C.S.mass (C.S.one - p.u1 0) (C.S.one - p.u1 0)) := by
  have hr := (construct_qr hb).1
  obtain ⟨xs, hX⟩ := exists_interpolant hC hP hq0 hp.dt hT.le
  refine ⟨xs, hX, ?_⟩
  subst hT
  have key := C71_error_estimate hb hC hB hS hp hlam hN ho hK hg0 hg hu hdata h₀ hf ops ops' hops hrhs g₀ hops' hmat hQ x xs hx
    hX.dual1 hX.dual2 (hint _)
  have d1 := dist_interpolant hS hp hlam hg0 hC.disc.hq hq0 rfl hM hP hX hr hQ hi (hint _)
  have d2 := data_interpolant (g := g) hS hp hC.disc.hq hq0 rfl hM hP hX hPb
  simp only at key
  rw [(interpolant_initial hC.disc.hq hN hX).1] at key
  have hpow : (max 1 (C.D.N * C.D.dt) * M * C.D.dt ^ C.D.q) ^ 2 = max 1 (C.D.N * C.D.dt) ^ 2 * M ^ 2 * C.D.dt ^ (2 * C.D.q) := by
    rw [mul_pow, mul_pow, ← pow_mul, mul_comm C.D.q]
  rw [hpow] at d1 d2
  have hT0 : 0 ≤ (C.D.N : ℝ) * C.D.dt := by have := hp.dt; positivity
  have nn : 0 ≤ rateConst C.S C.D C.D.ind g C.fe * (C.D.N * C.D.dt) * (max 1 (C.D.N * C.D.dt) ^ 2 * M ^ 2 * C.D.dt ^ (2 * C.D.q)) := by
    have := rateConst_nonneg (S := C.S) hp C.D.ind g C.fe
    have := hp.dt
    positivity
  linarith only [key, d1, d2, nn]

/-- C89: refine the time mesh and keep everything else.  Let the data be those of a solution `u` of the wave equation, and let
`p` be a path in the finite element space with `q + 1` bounded derivatives in time.  Then the computed solution differs from
the interpolant of `p` in time by `c * M² * dt^(2q)` (squared), the distance of `u` and `p` (no time discretisation
involved) and the floor given by the inexact weights and the placeholder.  The constant `c` depends neither on the number of
slabs nor on `u` and `p`. -/
theorem C89_time_rate (interp : V →ₗ[ℝ] V) (a : Args V) (om : DataDomain V) (S : Space V) (fe : FE V) (g : V →ₗ[ℝ] V →ₗ[ℝ] ℝ)
    (hg0 : ∀ v, 0 ≤ g v v) (hg : ∀ v y, S.nit v y ^ 2 ≤ g v v * S.pen y y) (hq0 : 1 ≤ a.otime.q) :
    ∃ c, ∀ (N : ℤ) (B : Built V) (om' : DataDomain V), construct interp { a with N := N } om = (.ok B, om') → 0 < N →
      ∀ C : Cfg V, C.Ok → C.OfBuilt B → C.S = S → C.fe = fe → S.Psd C.D.ind → C.D.Positive → 0 < C.D.lam →
      ∀ K, C.Observable K → K * ((1e-20) ^ 2 * (C.D.qstar + 1) ^ 2) ≤ 1e-2 * (C.D.gDual * (a.T / N)) →
      ∀ u : Spec.Path V, Spec.WaveSolution S fe.dual u (Set.Icc 0 a.T) → (∀ t, a.sol t = u.u1 t) →
      ∀ (p : Spec.Path V) (c1 c2 : ℕ → ℕ → ℝ → ℝ) (M P : ℝ), 0 ≤ M → Spec.SmoothPath fe a.otime.q.toNat a.T M p c1 c2 →
      (∀ t ∈ Set.Icc 0 a.T, S.omega C.D.ind (p.u1 t) (p.u1 t) ≤ P) →
      (∀ n < C.D.N, IntervalIntegrable (fun t => Spec.errDens S C.D g (u.u1 t - p.u1 t) (u.u2 t - p.u2 t) (u.du1 t - p.du1 t)
        (u.du2 t - p.du2 t)) MeasureTheory.volume (n * C.D.dt) ((n + 1 : ℕ) * C.D.dt)) →
      (∀ X : Field V, ∀ n < C.D.N, IntervalIntegrable (Spec.distDens S C.D (fun v => g v v) u X n) MeasureTheory.volume
        (n * C.D.dt) ((n + 1 : ℕ) * C.D.dt)) →
      ∀ (w₀ : World V), w₀.Fresh → w₀.NoFail → ∀ (ops ops' : List (Op V)), (∀ op ∈ ops, ¬ op.WritesInitial) →
      ∀ (r : Ref) (w₁ : World V), getSpacetimeRhs C (runOps C (.setupFE :: .setInitial (u.u1 0) (u.u2 0) :: ops) w₀) = (.ok r, w₁) →
      ∀ (v₀ : World V), v₀.Fresh → (∀ op ∈ ops', ¬ op.OtherFlag false) →
      ∀ (A : Mat) (v₁ : World V), getSpacetimeMatrix C false (runOps C ops' v₀) = (.ok A, v₁) →
      ∀ Q : ℕ → (ℝ → ℝ) → ℝ, (∀ n < C.D.N, RuleOnSlab B.qr (a.T / N) n (Q n)) →
      ∀ x : Vec, (∀ d < C.full.size, A.mult x d = w₁.heap r d) →
      ∃ xs, Spec.Interpolates C.D p (C.full.field fe xs) ∧
        Spec.energy S C.D C.D.ind (C.full.field fe x - C.full.field fe xs)
          ≤ c * M ^ 2 * (a.T / N) ^ (2 * a.otime.q.toNat) + 6 * Spec.pathDist S C.D C.D.ind g Q u p
            + 6 * ((2e-5) ^ 2 * (2 * a.stabs.data * P * a.T)
              + (1e-20) ^ 2 * (C.D.qstar + 1) ^ 2 / (a.stabs.dual * (a.T / N)) * S.mass (S.one - p.u1 0) (S.one - p.u1 0)) := by
  refine ⟨7 * rateConst S (builtOf interp a om ([], [])).D (builtOf interp a om ([], [])).D.ind g fe * a.T * max 1 a.T ^ 2, ?_⟩
  rintro N B om' hb hN C hC hB rfl rfl hS hp hlam K ho hK u hu hdata p c1 c2 M P hM hP hPb hi hint w₀ h₀ hf ops ops' hops r w₁ hrhs
    v₀ g₀ hops' A v₁ hmat Q hQ x hx
  obtain ⟨b, -, rfl⟩ := construct_facts hb
  have hD := hB.D
  have hdt : C.D.dt = a.T / N := by rw [hD]; rfl
  have hq : C.D.q = a.otime.q.toNat := by rw [hD]; rfl
  have hNn : C.D.N = N.toNat := by rw [hD]; rfl
  have hgd : C.D.gDual = a.stabs.dual := by rw [hD]; rfl
  have hga : C.D.gData = a.stabs.data := by rw [hD]; rfl
  have hsol : C.D.sol = a.sol := by rw [hD]; rfl
  have hind : C.D.ind = (builtOf interp a om ([], [])).D.ind := by rw [hD]; rfl
  have hc : rateConst C.S C.D C.D.ind g C.fe = rateConst C.S (builtOf interp a om ([], [])).D C.D.ind g C.fe := by
    unfold rateConst densConst; rw [hD]; rfl
  have hT : C.D.N * C.D.dt = a.T := by
    rw [hNn, hdt]
    have h1 : ((N.toNat : ℕ) : ℝ) = N := by
      have : ((N.toNat : ℕ) : ℤ) = N := Int.toNat_of_nonneg hN.le
      exact_mod_cast this
    have h2 : (N : ℝ) ≠ 0 := by exact_mod_cast hN.ne'
    rw [h1]; field_simp
  have key := rate_at hb hC hB hS hp hlam (by rw [hNn]; omega) (by rw [hq]; omega) ho (by rw [hdt]; exact hK) hg0 hg hT hu
    (fun t => by rw [hsol]; exact hdata t) hM (by rw [hq]; exact hP) hPb hi hint h₀ hf ops ops' hops hrhs g₀ hops' hmat
    (by rw [hdt]; exact hQ) x hx
  rw [hc] at key
  rw [← hind]
  rwa [← hdt, ← hq, ← hga, ← hgd]

/-! ### Solutions in the finite element space -/

theorem val_sub (q : ℕ) (dt : ℝ) (n : ℕ) (F G : ℤ → V) (t : ℝ) :
    Spec.val q dt n (F - G) t = Spec.val q dt n F t - Spec.val q dt n G t := by
  simp [Spec.val, smul_sub, sum_sub_distrib]

theorem valDt_sub (q : ℕ) (dt : ℝ) (n : ℕ) (F G : ℤ → V) (t : ℝ) :
    Spec.valDt q dt n (F - G) t = Spec.valDt q dt n F t - Spec.valDt q dt n G t := by
  simp [Spec.valDt, smul_sub, sum_sub_distrib]

/-- The primal error in terms of the energy of the difference to the interpolant. -/
theorem primalErr_le {S : Space V} {D : Disc V} (g : V →ₗ[ℝ] V →ₗ[ℝ] ℝ) (hg : ∀ v, 0 ≤ g v v) {fe : FE V} {ind : V}
    {T M : ℝ} {u : Spec.Path V} {c1 c2 : ℕ → ℕ → ℝ → ℝ} {X : Field V} (hS : S.Psd ind) (hD : D.Ok) (hP : D.Positive)
    (hlam : 0 < D.lam) (hq0 : 1 ≤ D.q) (hT : D.N * D.dt = T) (hM : 0 ≤ M)
    (hp : Spec.SmoothPath fe D.q T M u c1 c2) (hX : Spec.Interpolates D u X) (Y : Field V) :
    Spec.primalErr S D ind u Y
      ≤ 2 * Spec.energy S D ind (Y - X) + 2 * rateConst S D ind g fe * T * (max 1 T * M * D.dt ^ D.q) ^ 2 := by
  have hdt := hP.dt
  have hq := hD.hq
  have hw := hP.weights
  set δ := max 1 T * M * D.dt ^ D.q with hδ
  have hT' : 2 * rateConst S D ind g fe * T * δ ^ 2
      = ∑ n ∈ range D.N, 2 * rateConst S D ind g fe * δ ^ 2 * D.dt := by
    rw [sum_const, card_range, nsmul_eq_mul, ← hT]; ring
  rw [hT', Spec.primalErr, energy_eq, mul_sum, ← sum_add_distrib]
  refine sum_le_sum fun n hn => ?_
  have hn := mem_range.1 hn
  have hn' : ((n + 1 : ℕ) : ℝ) ≤ D.N := by exact_mod_cast hn
  have hnT : ((n + 1 : ℕ) : ℝ) * D.dt ≤ T := by rw [← hT]; gcongr
  have hle : (n : ℝ) * D.dt ≤ ((n + 1 : ℕ) : ℝ) * D.dt := by push_cast; nlinarith
  have hsub : Set.uIcc (n * D.dt) (((n + 1 : ℕ) : ℝ) * D.dt) ⊆ Set.Icc 0 T := by
    rw [Set.uIcc_of_le hle]; exact Set.Icc_subset_Icc (by positivity) hnT
  have len : ((n + 1 : ℕ) : ℝ) * D.dt - n * D.dt = D.dt := by push_cast; ring
  obtain ⟨p1, p2, p3, p4⟩ := hp.combOn hq0 hsub
  have v1 := combOn_val (V := V) hq D.dt n (Set.uIcc (n * D.dt) (((n + 1 : ℕ) : ℝ) * D.dt)) (Y 0)
  have v2 := combOn_val (V := V) hq D.dt n (Set.uIcc (n * D.dt) (((n + 1 : ℕ) : ℝ) * D.dt)) (Y 1)
  have k1 := p1.sub v1.1; have k2 := p2.sub v2.1; have k3 := p3.sub v1.2; have k4 := p4.sub v2.2
  have k5 := k4.sub (k1.map S.lap)
  -- the integrals
  have i1 : Spec.slabInt D.dt n (fun t =>
      D.gData * S.omega ind (u.u1 t - Spec.val D.q D.dt n (Y 0) t) (u.u1 t - Spec.val D.q D.dt n (Y 0) t)
      + D.gPrimal * Spec.primalStab S D.lam (u.u1 t - Spec.val D.q D.dt n (Y 0) t) (u.u2 t - Spec.val D.q D.dt n (Y 1) t)
          (u.du1 t - Spec.valDt D.q D.dt n (Y 0) t) (u.du2 t - Spec.valDt D.q D.dt n (Y 1) t)
          (u.u1 t - Spec.val D.q D.dt n (Y 0) t) (u.u2 t - Spec.val D.q D.dt n (Y 1) t)
          (u.du1 t - Spec.valDt D.q D.dt n (Y 0) t) (u.du2 t - Spec.valDt D.q D.dt n (Y 1) t))
      ≤ 2 * (∫ t in (n * D.dt)..((n + 1 : ℕ) * D.dt), eDens S D ind (Y - X) n t)
        + 2 * rateConst S D ind g fe * δ ^ 2 * D.dt := by
    unfold Spec.slabInt
    have : 2 * rateConst S D ind g fe * δ ^ 2 * D.dt
        = ∫ _ in (n * D.dt)..(((n + 1 : ℕ) : ℝ) * D.dt), 2 * rateConst S D ind g fe * δ ^ 2 := by
      rw [intervalIntegral.integral_const, len, smul_eq_mul]; ring
    have ce := (continuous_eDens S D hD ind (Y - X) n).intervalIntegrable (μ := MeasureTheory.volume)
      (n * D.dt) (((n + 1 : ℕ) : ℝ) * D.dt)
    rw [this, ← intervalIntegral.integral_const_mul, ← intervalIntegral.integral_add (ce.const_mul 2) intervalIntegrable_const]
    refine intervalIntegral.integral_mono_on hle ?_ ((ce.const_mul 2).add intervalIntegrable_const) fun t ht => ?_
    · unfold Spec.primalStab
      exact ((continuousOn_const.mul (k1.bilin (S.omega ind) k1)).add
        (continuousOn_const.mul ((((continuousOn_const.mul (k1.bilin S.pen k1)).add (k1.bilin S.ghost k1)).add
          ((k2.sub k3).bilin S.mass (k2.sub k3))).add (k5.bilin S.h2 k5)))).intervalIntegrable
    · obtain ⟨s1, s2, s3, s4⟩ := interpolant_small hq hq0 hdt hT hM hp hX hn ht
      have sm := errDens_small (g := g) hS hP.dual hP.primal.le hlam s1 s2 s3 s4
      have so := mul_le_mul_of_nonneg_left (s1.bilin (S.omega ind)) hP.data
      unfold eDens primalAt dualAt
      simp only [Pi.sub_apply, val_sub, valDt_sub]
      set x1 := Spec.val D.q D.dt n (X 0) t
      set x2 := Spec.val D.q D.dt n (X 1) t
      set x3 := Spec.valDt D.q D.dt n (X 0) t
      set x4 := Spec.valDt D.q D.dt n (X 1) t
      set y1 := Spec.val D.q D.dt n (Y 0) t
      set y2 := Spec.val D.q D.dt n (Y 1) t
      set y3 := Spec.valDt D.q D.dt n (Y 0) t
      set y4 := Spec.valDt D.q D.dt n (Y 1) t
      set z1 := Spec.val D.qstar D.dt n (Y 2) t - Spec.val D.qstar D.dt n (X 2) t
      set z2 := Spec.val D.qstar D.dt n (Y 3) t - Spec.val D.qstar D.dt n (X 3) t
      have dn := mul_nonneg hw.dual (dualStab_nonneg hS hw.lam z1 z2)
      have hgd := hP.dual
      have ed : D.gPrimal * Spec.primalStab S D.lam (u.u1 t - x1) (u.u2 t - x2) (u.du1 t - x3) (u.du2 t - x4)
          (u.u1 t - x1) (u.u2 t - x2) (u.du1 t - x3) (u.du2 t - x4)
          ≤ Spec.errDens S D g (u.u1 t - x1) (u.u2 t - x2) (u.du1 t - x3) (u.du2 t - x4) := by
        unfold Spec.errDens
        have := hS.mass (u.du2 t - x4); have := hS.stiff (u.u1 t - x1); have := hg (u.u1 t - x1)
        have := hS.mass (u.du1 t - x3 - (u.u2 t - x2))
        have : 0 ≤ 1 / D.gDual * (S.mass (u.du2 t - x4) (u.du2 t - x4) + S.stiff (u.u1 t - x1) (u.u1 t - x1)
          + 1 / D.lam * g (u.u1 t - x1) (u.u1 t - x1)
          + S.mass (u.du1 t - x3 - (u.u2 t - x2)) (u.du1 t - x3 - (u.u2 t - x2))) := by positivity
        linarith
      have ng : ∀ (B : V →ₗ[ℝ] V →ₗ[ℝ] ℝ), (∀ v, 0 ≤ B v v) → ∀ a b c : V,
          B (a - c) (a - c) ≤ 2 * B (a - b) (a - b) + 2 * B (c - b) (c - b) := by
        intro B hB a b c
        have := bilin_add_le B hB (a - b) (-(c - b))
        have e : a - b + -(c - b) = a - c := by abel
        rw [e] at this
        simpa only [map_neg, LinearMap.neg_apply, neg_neg] using this
      have q0 := mul_le_mul_of_nonneg_left (ng (S.omega ind) hS.omega (u.u1 t) x1 y1) hP.data
      have q1 := mul_le_mul_of_nonneg_left (ng S.pen hS.pen (u.u1 t) x1 y1) hlam.le
      have q2 := ng S.ghost hS.ghost (u.u1 t) x1 y1
      have q3 := ng S.mass hS.mass (u.u2 t - u.du1 t) (x2 - x3) (y2 - y3)
      have q4 := ng S.h2 hS.h2 (u.du2 t - S.lap (u.u1 t)) (x4 - S.lap x1) (y4 - S.lap y1)
      have e1 : ∀ a b c d : V, a - b - (c - d) = a - c - (b - d) := fun a b c d => by abel
      rw [e1 (u.u2 t) (u.du1 t) y2 y3, e1 (u.u2 t) (u.du1 t) x2 x3, e1 y2 y3 x2 x3] at q3
      rw [e1 (u.du2 t) (S.lap (u.u1 t)) y4, e1 (u.du2 t) (S.lap (u.u1 t)) x4, e1 y4 (S.lap y1) x4, ← map_sub, ← map_sub,
        ← map_sub] at q4
      have q5 := mul_le_mul_of_nonneg_left (add_le_add (add_le_add (add_le_add q1 q2) q3) q4) hP.primal.le
      unfold Spec.primalStab at ed ⊢
      unfold rateConst
      linarith only [q0, q5, ed, sm, so, dn]
  -- the bottom
  have i2 : (if n = 0 then
        if D.wellPosed then D.gJump * Spec.jumpForm S D.dt (u.u1 0 - Spec.val D.q D.dt 0 (Y 0) 0) (u.u2 0 - Spec.val D.q D.dt 0 (Y 1) 0)
          (u.u1 0 - Spec.val D.q D.dt 0 (Y 0) 0) (u.u2 0 - Spec.val D.q D.dt 0 (Y 1) 0) else 0
      else
        D.gJump * Spec.jumpForm S D.dt (Spec.jump D.q D.dt n (Y 0)) (Spec.jump D.q D.dt n (Y 1))
          (Spec.jump D.q D.dt n (Y 0)) (Spec.jump D.q D.dt n (Y 1)))
      ≤ eBot S D (Y - X) n := by
    unfold eBot
    by_cases h0 : n = 0
    · rw [if_pos h0, if_pos h0]
      by_cases hwp : D.wellPosed = true
      · rw [if_pos hwp, if_pos hwp]
        obtain ⟨-, a2, a3⟩ := interpolant_initial hq (by omega) hX
        simp only [Pi.sub_apply, val_sub]
        rw [a2, a3]
        refine le_of_eq ?_
        congr 1
        unfold Spec.jumpForm
        simp only [map_sub, LinearMap.sub_apply]
        ring
      · rw [if_neg hwp, if_neg hwp]
    · rw [if_neg h0, if_neg h0]
      obtain ⟨j1, j2⟩ := interpolant_jump hq hq0 hdt hX hn h0
      have e1 : Spec.jump D.q D.dt n ((Y - X) 0) = Spec.jump D.q D.dt n (Y 0) := by
        have : Spec.jump D.q D.dt n ((Y - X) 0) = Spec.jump D.q D.dt n (Y 0) - Spec.jump D.q D.dt n (X 0) := by
          simp only [Spec.jump, Pi.sub_apply, val_sub]; abel
        rw [this, j1, sub_zero]
      have e2 : Spec.jump D.q D.dt n ((Y - X) 1) = Spec.jump D.q D.dt n (Y 1) := by
        have : Spec.jump D.q D.dt n ((Y - X) 1) = Spec.jump D.q D.dt n (Y 1) - Spec.jump D.q D.dt n (X 1) := by
          simp only [Spec.jump, Pi.sub_apply, val_sub]; abel
        rw [this, j2, sub_zero]
      rw [e1, e2, le_add_iff_nonneg_right]
      split
      · have := hS.mass (Spec.val D.qstar D.dt n ((Y - X) 2) (n * D.dt))
        have := hS.mass (Spec.val D.qstar D.dt n ((Y - X) 3) (n * D.dt))
        have := hP.dual
        positivity
      · exact le_rfl
  have nb := eBot_nonneg (Y - X) hS hw n
  linarith only [i1, i2, nb]

/-- A path has distance zero to itself. -/
theorem pathDist_self (S : Space V) (D : Disc V) (ind : V) (g : V →ₗ[ℝ] V →ₗ[ℝ] ℝ) {r : QuadRule} {Q : ℕ → (ℝ → ℝ) → ℝ}
    (hQ : ∀ n < D.N, RuleOnSlab r D.dt n (Q n)) (u : Spec.Path V) : Spec.pathDist S D ind g Q u u = 0 := by
  refine sum_eq_zero fun n hn => ?_
  have : Q n (fun _ => 0) = 0 := by
    have := ruleOnSlab_mul (hQ n (mem_range.1 hn)) 0 (fun _ => 0)
    simpa using this
  simp [Spec.errDens, Spec.primalStab, Spec.jumpForm, Spec.slabInt, this]

/-- C89: for a solution `u` of the wave equation in the finite element space with `q + 1` bounded derivatives in time,
the error of the computed solution (misfit on the data domain, boundary values, residual of the equation, initial values,
jumps) is `c * M² * dt^(2q)` (squared), down to the floor given by the inexact weights and the placeholder. -/
theorem C89_semidiscrete_rate (interp : V →ₗ[ℝ] V) (a : Args V) (om : DataDomain V) (S : Space V) (fe : FE V)
    (g : V →ₗ[ℝ] V →ₗ[ℝ] ℝ) (hg0 : ∀ v, 0 ≤ g v v) (hg : ∀ v y, S.nit v y ^ 2 ≤ g v v * S.pen y y) (hq0 : 1 ≤ a.otime.q) :
    ∃ c, ∀ (N : ℤ) (B : Built V) (om' : DataDomain V), construct interp { a with N := N } om = (.ok B, om') → 0 < N →
      ∀ C : Cfg V, C.Ok → C.OfBuilt B → C.S = S → C.fe = fe → S.Psd C.D.ind → C.D.Positive → 0 < C.D.lam →
      ∀ K, C.Observable K → K * ((1e-20) ^ 2 * (C.D.qstar + 1) ^ 2) ≤ 1e-2 * (C.D.gDual * (a.T / N)) →
      ∀ u : Spec.Path V, Spec.WaveSolution S fe.dual u (Set.Icc 0 a.T) → (∀ t, a.sol t = u.u1 t) →
      ∀ (c1 c2 : ℕ → ℕ → ℝ → ℝ) (M P : ℝ), 0 ≤ M → Spec.SmoothPath fe a.otime.q.toNat a.T M u c1 c2 →
      (∀ t ∈ Set.Icc 0 a.T, S.omega C.D.ind (u.u1 t) (u.u1 t) ≤ P) →
      ∀ (w₀ : World V), w₀.Fresh → w₀.NoFail → ∀ (ops ops' : List (Op V)), (∀ op ∈ ops, ¬ op.WritesInitial) →
      ∀ (r : Ref) (w₁ : World V), getSpacetimeRhs C (runOps C (.setupFE :: .setInitial (u.u1 0) (u.u2 0) :: ops) w₀) = (.ok r, w₁) →
      ∀ (v₀ : World V), v₀.Fresh → (∀ op ∈ ops', ¬ op.OtherFlag false) →
      ∀ (A : Mat) (v₁ : World V), getSpacetimeMatrix C false (runOps C ops' v₀) = (.ok A, v₁) →
      ∀ x : Vec, (∀ d < C.full.size, A.mult x d = w₁.heap r d) →
        Spec.primalErr S C.D C.D.ind u (C.full.field fe x)
          ≤ c * M ^ 2 * (a.T / N) ^ (2 * a.otime.q.toNat)
            + 12 * ((2e-5) ^ 2 * (2 * a.stabs.data * P * a.T)
              + (1e-20) ^ 2 * (C.D.qstar + 1) ^ 2 / (a.stabs.dual * (a.T / N)) * S.mass (S.one - u.u1 0) (S.one - u.u1 0)) := by
  obtain ⟨c, hc⟩ := C89_time_rate interp a om S fe g hg0 hg hq0
  refine ⟨2 * c + 2 * rateConst S (builtOf interp a om ([], [])).D (builtOf interp a om ([], [])).D.ind g fe * a.T * max 1 a.T ^ 2, ?_⟩
  rintro N B om' hb hN C hC hB rfl rfl hS hp hlam K ho hK u hu hdata c1 c2 M P hM hP hPb w₀ h₀ hf ops ops' hops r w₁ hrhs
    v₀ g₀ hops' A v₁ hmat x hx
  have hr := (construct_qr hb).1
  choose Q hQ using exists_ruleOnSlab hr (a.T / N)
  have hD := hB.D
  obtain ⟨b, -, hBe⟩ := construct_facts hb
  have hDe : C.D = (builtOf interp { a with N := N } om b).D := by rw [hD, hBe]
  have hdt : C.D.dt = a.T / N := by rw [hDe]; rfl
  have hq : C.D.q = a.otime.q.toNat := by rw [hDe]; rfl
  have hNn : C.D.N = N.toNat := by rw [hDe]; rfl
  have hind : C.D.ind = (builtOf interp a om ([], [])).D.ind := by rw [hDe]; rfl
  have hcc : rateConst C.S C.D C.D.ind g C.fe = rateConst C.S (builtOf interp a om ([], [])).D C.D.ind g C.fe := by
    unfold rateConst densConst; rw [hDe]; rfl
  have hT : C.D.N * C.D.dt = a.T := by
    rw [hNn, hdt]
    have h1 : ((N.toNat : ℕ) : ℝ) = N := by
      have : ((N.toNat : ℕ) : ℤ) = N := Int.toNat_of_nonneg hN.le
      exact_mod_cast this
    have h2 : (N : ℝ) ≠ 0 := by exact_mod_cast hN.ne'
    rw [h1]; field_simp
  have hq1 : 1 ≤ C.D.q := by rw [hq]; omega
  have hP' : Spec.SmoothPath C.fe C.D.q a.T M u c1 c2 := by rw [hq]; exact hP
  have cont : ∀ X : Field V, ∀ n < C.D.N, IntervalIntegrable (Spec.distDens C.S C.D (fun v => g v v) u X n) MeasureTheory.volume
      (n * C.D.dt) ((n + 1 : ℕ) * C.D.dt) := by
    intro X n hn
    have hn' : ((n + 1 : ℕ) : ℝ) ≤ C.D.N := by exact_mod_cast hn
    have h0 := hp.dt
    have hnT : ((n + 1 : ℕ) : ℝ) * C.D.dt ≤ a.T := by rw [← hT]; gcongr
    have hle : (n : ℝ) * C.D.dt ≤ ((n + 1 : ℕ) : ℝ) * C.D.dt := by push_cast; nlinarith
    have hsub : Set.uIcc (n * C.D.dt) (((n + 1 : ℕ) : ℝ) * C.D.dt) ⊆ Set.Icc 0 a.T := by
      rw [Set.uIcc_of_le hle]; exact Set.Icc_subset_Icc (by positivity) hnT
    obtain ⟨p1, p2, p3, p4⟩ := hP'.combOn hq1 hsub
    have v1 := combOn_val (V := V) hC.disc.hq C.D.dt n (Set.uIcc (n * C.D.dt) (((n + 1 : ℕ) : ℝ) * C.D.dt)) (X 0)
    have v2 := combOn_val (V := V) hC.disc.hq C.D.dt n (Set.uIcc (n * C.D.dt) (((n + 1 : ℕ) : ℝ) * C.D.dt)) (X 1)
    exact (errDens_contOn C.S C.D g (p1.sub v1.1) (p2.sub v2.1) (p3.sub v1.2) (p4.sub v2.2)).intervalIntegrable
  have zero : ∀ n < C.D.N, IntervalIntegrable (fun t => Spec.errDens C.S C.D g (u.u1 t - u.u1 t) (u.u2 t - u.u2 t) (u.du1 t - u.du1 t)
      (u.du2 t - u.du2 t)) MeasureTheory.volume (n * C.D.dt) ((n + 1 : ℕ) * C.D.dt) := fun n _ => by
    simp only [sub_self]; exact intervalIntegrable_const
  obtain ⟨xs, hX, he⟩ := hc N B om' hb hN C hC hB rfl rfl hS hp hlam K ho hK u hu hdata u c1 c2 M P hM hP hPb zero cont w₀ h₀ hf ops ops'
    hops r w₁ hrhs v₀ g₀ hops' A v₁ hmat Q (fun n _ => hQ n) x hx
  rw [pathDist_self (r := B.qr) C.S C.D C.D.ind g (by rw [hdt]; exact fun n _ => hQ n)] at he
  have hpe := primalErr_le g hg0 hS hC.disc hp hlam hq1 hT hM hP' hX (C.full.field C.fe x)
  have hpow : (max 1 a.T * M * C.D.dt ^ C.D.q) ^ 2 = max 1 a.T ^ 2 * M ^ 2 * (a.T / N) ^ (2 * a.otime.q.toNat) := by
    rw [mul_pow, mul_pow, ← pow_mul, mul_comm C.D.q, hdt, hq]
  rw [hpow, hcc] at hpe
  rw [← hind]
  linarith only [he, hpe]

namespace Example

/-- Flux at both end points, as a form. -/
noncomputable def fluxForm : V3 →ₗ[ℝ] V3 →ₗ[ℝ] ℝ :=
  let L : V3 →ₗ[ℝ] ℝ := (LinearMap.fst ℝ ℝ ℝ ∘ₗ LinearMap.snd ℝ ℝ (ℝ × ℝ)) + (2 * Real.pi) • (LinearMap.snd ℝ ℝ ℝ ∘ₗ LinearMap.snd ℝ ℝ (ℝ × ℝ))
  (2 : ℝ) • L.smulRight L

theorem fluxForm_eq (v : V3) : fluxForm v v = flux3 v := by
  simp [fluxForm, flux3, deriv_ι, Real.cos_two_pi]
  ring

/-- One basis function, `sin(2πx)`. -/
noncomputable def feMode : FE V3 where
  mP := 1
  bP _ := (0, 0, 1)
  mD := 1
  bD _ := (0, 0, 1)

theorem feMode_indep : feMode.Indep := by
  intro c a h s hs
  fin_cases c <;> simp [FE.m, FE.basis, feMode] at h hs <;> rw [hs] <;> exact h

/-- `cfg3` with `N` slabs and the basis function `sin(2πx)`. -/
noncomputable def cfgMode (N : ℕ) (B : Built V3) : Cfg V3 :=
  { cfg3 B with
    fe := feMode
    full := stdSpace (fullSizes 1 1 N) feMode.m
    slab := stdSpace (slabSizes 1 1) feMode.m
    coup := stdSpace couplingSizes feMode.m
    bnd := stdSpace bndSizes feMode.m }

theorem builtMode {N : ℕ} (hN : 0 < N) : ∃ B, construct LinearMap.id { args3 with N := (N : ℤ) } ⟨(1, 0, 0), false⟩
      = (.ok B, ⟨(1, 0, 0), false⟩) ∧
    (cfgMode N B).Ok ∧ (cfgMode N B).OfBuilt B ∧ B.D.Positive ∧ B.D.ind = (1, 0, 0) ∧ B.D.wellPosed = true ∧
    B.D.N = N ∧ B.D.dt = 1 / N ∧ B.D.qstar = 1 ∧ B.D.gDual = 1 ∧ B.D.gJump = 1 ∧ B.D.lam = 5 := by
  obtain ⟨b, -, e⟩ := construct_run (interp := LinearMap.id) (a := { args3 with N := (N : ℤ) }) (om := ⟨(1, 0, 0), false⟩)
    (by simp; omega) (by simp [Args.Supported, args3])
  have hN' : (0 : ℝ) < N := by exact_mod_cast hN
  have hdt : (builtOf LinearMap.id { args3 with N := (N : ℤ) } ⟨(1, 0, 0), false⟩ b).D.dt = 1 / N := by simp [builtOf, args3]
  refine ⟨_, e, ?_, ?_, ?_, rfl, rfl, by simp [builtOf], hdt, rfl, rfl, rfl, by norm_num [builtOf, args3]⟩
  · refine ⟨⟨getElmatTime_ok (by simp [cfgMode, cfg3, builtOf, args3]) (by simp [cfgMode, cfg3, builtOf, args3]),
      by change _ ≠ _; rw [cfgMode, cfg3, hdt]; positivity⟩, stdSpace_ok _ _, ?_,
      stdSpace_ok _ _, rfl, stdSpace_ok _ _, rfl, stdSpace_ok _ _, rfl⟩
    simp [cfgMode, cfg3, builtOf, args3, stdSpace]
  · constructor <;> simp [cfgMode, cfg3, builtOf, QuadRule.currentPts, QuadRule.tWeights, gaussRadau]
  · constructor <;> first | (rw [hdt]; positivity) | norm_num [builtOf, args3]

/-- Derivatives of `cos(2πt)` and of its derivative. -/
noncomputable def waveC1 (_ k : ℕ) (t : ℝ) : ℝ := (2 * Real.pi) ^ k * Real.cos (2 * Real.pi * t + k * (Real.pi / 2))
noncomputable def waveC2 (s k : ℕ) (t : ℝ) : ℝ := waveC1 s (k + 1) t

theorem waveC1_chain (m s : ℕ) (a b : ℝ) : Chain m a b (waveC1 s) := fun k _ t _ => by
  have h : HasDerivAt (fun t : ℝ => (2 * Real.pi) ^ k * Real.cos (2 * Real.pi * t + k * (Real.pi / 2)))
      ((2 * Real.pi) ^ k * (-Real.sin (2 * Real.pi * t + k * (Real.pi / 2)) * (2 * Real.pi * 1))) t :=
    ((((hasDerivAt_id t).const_mul (2 * Real.pi)).add_const _).cos).const_mul _
  refine h.congr_deriv ?_
  rw [waveC1, Nat.cast_succ, add_mul, one_mul, ← add_assoc, Real.cos_add_pi_div_two, pow_succ]
  ring

theorem wave3_smooth : Spec.SmoothPath feMode 1 1 ((2 * Real.pi) ^ 3) wave3 waveC1 waveC2 := by
  have p2 : (1 : ℝ) ≤ 2 * Real.pi := by nlinarith [Real.two_le_pi]
  have c1 : ∀ s t, waveC1 s 1 t = -2 * Real.pi * Real.sin (2 * Real.pi * t) := fun s t => by
    simp [waveC1, Real.cos_add_pi_div_two]
  have c2 : ∀ s t, waveC1 s 2 t = -(2 * Real.pi) ^ 2 * Real.cos (2 * Real.pi * t) := fun s t => by
    have : ((2 : ℕ) : ℝ) * (Real.pi / 2) = Real.pi := by push_cast; ring
    rw [waveC1, this, Real.cos_add_pi]; ring
  refine ⟨fun s _ => ⟨waveC1_chain _ _ _ _, (waveC1_chain 3 s 0 1).shift⟩, fun s _ t _ => ⟨?_, ?_⟩, fun t _ => ?_, fun t _ => ?_,
    fun t _ => ?_, fun t _ => ?_⟩
  · rw [waveC1, abs_mul, abs_of_nonneg (by positivity)]
    calc _ ≤ (2 * Real.pi) ^ 2 * 1 := by gcongr; exact Real.abs_cos_le_one _
      _ ≤ (2 * Real.pi) ^ 3 := by rw [mul_one]; exact pow_le_pow_right₀ p2 (by norm_num)
  · rw [waveC2, waveC1, abs_mul, abs_of_nonneg (by positivity)]
    calc _ ≤ (2 * Real.pi) ^ 3 * 1 := by gcongr; exact Real.abs_cos_le_one _
      _ = _ := mul_one _
  · simp [feMode, wave3, waveC1]
  · simp only [feMode, wave3, waveC2, sum_range_one, c1]
  · simp only [feMode, wave3, sum_range_one, c1]
  · simp only [feMode, wave3, waveC2, sum_range_one, c2]

/-- C89 applies to the standing wave for every number of slabs: the errors of all computed solutions are bounded by one
constant times `N⁻²`, down to the floor. -/
example : ∃ c, ∀ N : ℕ, 0 < N → ∃ B w₁ v₁ A x,
    getSpacetimeRhs (cfgMode N B) (runOps (cfgMode N B) [.setupFE, .setInitial (wave3.u1 0) (wave3.u2 0)] (freshWorld fun _ => 0))
      = (.ok .rhs, w₁) ∧
    getSpacetimeMatrix (cfgMode N B) false (runOps (cfgMode N B) [.setupFE] (freshWorld fun _ => 0)) = (.ok A, v₁) ∧
    (∀ d < (cfgMode N B).full.size, A.mult x d = w₁.heap .rhs d) ∧ B.D.N = N ∧
    Spec.primalErr modeSpace B.D (1, 0, 0) wave3 ((cfgMode N B).full.field feMode x)
      ≤ c * ((2 * Real.pi) ^ 3) ^ 2 * (1 / N) ^ 2
        + 12 * ((2e-5) ^ 2 * (2 * 1e4 * modeSpace.omega (1, 0, 0) (0, 0, 1) (0, 0, 1) * 1)
          + (1e-20) ^ 2 * (1 + 1) ^ 2 / (1 * (1 / N)) * modeSpace.mass (modeSpace.one - wave3.u1 0) (modeSpace.one - wave3.u1 0)) := by
  obtain ⟨c, hc⟩ := C89_semidiscrete_rate LinearMap.id args3 ⟨(1, 0, 0), false⟩ modeSpace feMode fluxForm
    (fun v => by rw [fluxForm_eq]; unfold flux3; positivity) (fun v y => by rw [fluxForm_eq]; exact flux3_bound v y)
    (by simp [args3])
  refine ⟨c, fun N hN => ?_⟩
  obtain ⟨B, hb, hC, hO, hP, hi, hwp, hNB, hdt, hqs, hgd, hgj, hlam⟩ := builtMode hN
  obtain ⟨w₁, hr⟩ := getRhs_after (cfgMode N B) (fun _ => 0) (wave3.u1 0) (wave3.u2 0) []
  obtain ⟨v₁, hm⟩ := getMatrix_ok (cfgMode N B) false fun _ => 0
  have hi' : (cfgMode N B).D.ind = (1, 0, 0) := hi
  have hS : modeSpace.Psd (cfgMode N B).D.ind := by rw [hi']; exact modeSpace_psd
  obtain ⟨hsz, hU⟩ := C15_unique_solution hC hS modeSpace_definite hP hwp feMode_indep
    (freshWorld_fresh _) [.setupFE] (by simp [Op.OtherFlag]) hm
  obtain ⟨x, hx, -⟩ := hU (w₁.heap .rhs)
  rw [hsz] at hx
  have hN0 : (0 : ℝ) < N := by exact_mod_cast hN
  have hN' : 0 < (cfgMode N B).D.N := by change 0 < B.D.N; rw [hNB]; exact hN
  refine ⟨B, w₁, v₁, _, x, hr, hm, hx, hNB, ?_⟩
  have key := hc N B _ hb (by exact_mod_cast hN) (cfgMode N B) hC hO rfl rfl hS hP (by change 0 < B.D.lam; rw [hlam]; norm_num)
    _ (C68_initial_values_observe hC hS modeSpace_definite hP hwp hN')
    (by
      change B.D.dt / B.D.gJump * ((1e-20) ^ 2 * ((B.D.qstar : ℝ) + 1) ^ 2) ≤ 1e-2 * (B.D.gDual * (1 / ((N : ℤ) : ℝ)))
      rw [hdt, hqs, hgd, hgj]
      have : (0 : ℝ) < 1 / N := by positivity
      push_cast
      nlinarith)
    wave3 (wave3_solution _ _) (fun t => rfl) waveC1 waveC2 ((2 * Real.pi) ^ 3) (modeSpace.omega (1, 0, 0) (0, 0, 1) (0, 0, 1)) (by positivity)
    (by simpa [args3] using wave3_smooth)
    (by
      intro t _
      rw [hi']
      have h1 := modeSpace_psd.omega (0, 0, 1)
      have h2 := Real.cos_sq_le_one (2 * Real.pi * t)
      simp only [wave3, map_smul, LinearMap.smul_apply, smul_eq_mul]
      nlinarith)
    _ (freshWorld_fresh _) (freshWorld_noFail _) [] [.setupFE] (by simp) _ _ hr _ (freshWorld_fresh _) (by simp [Op.OtherFlag]) _ _ hm x hx
  rw [hi'] at key
  have e1 : ((cfgMode N B).D.qstar : ℝ) = 1 := by change ((B.D.qstar : ℕ) : ℝ) = 1; rw [hqs]; norm_num
  rw [e1] at key
  simp only [args3, Int.cast_natCast, Int.toNat_one, mul_one] at key ⊢
  exact key

end Example

end Dxss
