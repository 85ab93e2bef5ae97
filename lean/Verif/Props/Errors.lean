import Verif.Lemmas.Errors
import Verif.Props.Requests
import Verif.Props.Construct
import Mathlib.Topology.ContinuousOn
import Mathlib.Algebra.Order.Floor.Semiring

/-!
# Properties C40-C43: error measurement and plot tables
-/

namespace Dxss
open Finset
set_option linter.unusedSectionVars false
variable {V : Type} [AddCommGroup V] [Module ℝ V] {C : Cfg V}

/-! ## Specification of the reconstruction -/

/-- Coefficient function `j` of slab `n` of the displacement part of `v`. -/
noncomputable def Cfg.node (C : Cfg V) (v : Vec) (n j : ℕ) : V := C.u1Node v (n * (C.D.q + 1) + j)

/-- The post-processed function on slab `n`: interpolant minus a quadratic lifting of the jump at
the bottom, with `τ` the local time. -/
noncomputable def Cfg.recon (C : Cfg V) (v : Vec) (n : ℕ) (t : ℝ) : V :=
  let τ := t / C.D.dt - n
  (∑ j ∈ range (C.D.q + 1), phi C.D.q j τ • C.node v n j)
    - if n = 0 then 0 else ((2 * τ - 1) * (τ - 1)) • (C.node v n 0 - C.node v (n - 1) C.D.q)

/-- Its time derivative (`C40_recon_derivative`). -/
noncomputable def Cfg.reconDot (C : Cfg V) (v : Vec) (n : ℕ) (t : ℝ) : V :=
  let τ := t / C.D.dt - n
  (1 / C.D.dt) • ((∑ j ∈ range (C.D.q + 1), dphi C.D.q j τ • C.node v n j)
    - if n = 0 then 0 else (4 * τ - 3) • (C.node v n 0 - C.node v (n - 1) C.D.q))

theorem ufSum_eq (q : ℕ) (c : ℕ → ℝ) (f : ℕ → V) : ufSum q c f = ∑ j ∈ range (q + 1), c j • f j := by
  unfold ufSum
  induction q + 1 with
  | zero => simp
  | succ m ih => rw [List.range_succ, List.map_append, List.sum_append, ih, Finset.sum_range_succ]; simp

theorem local_time (hdt : C.D.dt ≠ 0) (n : ℕ) (t : ℝ) : (t - n * C.D.dt) / C.D.dt = t / C.D.dt - n := by
  field_simp

theorem local_arg (hdt : C.D.dt ≠ 0) (n : ℕ) (t : ℝ) :
    (2 * t - (n * C.D.dt + C.D.dt + n * C.D.dt)) / C.D.dt = 2 * (t / C.D.dt - n) - 1 := by
  field_simp; ring

theorem top_index {n q : ℕ} (hn : 0 < n) : n * (q + 1) - 1 = (n - 1) * (q + 1) + q := by
  obtain ⟨m, rfl⟩ : ∃ m, n = m + 1 := ⟨n - 1, by omega⟩
  simp [add_mul]

/-- The code computes the reconstruction. -/
theorem uh_eq_recon (hdt : C.D.dt ≠ 0) (v : Vec) (n : ℕ) (t : ℝ) : C.uh v n t = C.recon v n t := by
  simp only [Cfg.uh, uhAt, Cfg.recon, ufSum_eq, local_time hdt, local_arg hdt, thetaRef_eq]
  by_cases h : 0 < n
  · rw [if_pos h, if_neg h.ne', top_index h]
    simp only [Cfg.node, add_zero]
    congr 2; ring
  · rw [if_neg h, if_pos (by omega), sub_zero]; rfl

theorem uhPrime_eq_reconDot (hdt : C.D.dt ≠ 0) (v : Vec) (n : ℕ) (t : ℝ) : C.uhPrime v n t = C.reconDot v n t := by
  simp only [Cfg.uhPrime, uhPrimeAt, Cfg.reconDot, ufSum_eq, local_time hdt, local_arg hdt, dThetaRef_eq, smul_sub,
    Finset.smul_sum, smul_smul]
  by_cases h : 0 < n
  · rw [if_pos h, if_neg h.ne', top_index h]
    simp only [Cfg.node, add_zero]
    rw [← smul_sub, ← smul_sub, smul_smul]
    congr 2; ring
  · rw [if_neg h, if_pos (by omega), smul_zero, sub_zero]; rfl

/-! ## C40 -/

theorem q_le (h : C.D.Ok) : C.D.q ≤ 3 := by
  by_contra hq
  have := h.elmat
  rw [getElmatTime_error (fun h => hq h.1)] at this
  cases this

theorem phi_at_one {q j : ℕ} (hq : q ≤ 3) (hj : j ≤ q) : phi q j 1 = if j = q then 1 else 0 := by
  interval_cases q <;> interval_cases j <;> simp [phi, basisInTime] <;> norm_num

theorem phi_at_zero {q j : ℕ} (hq : q ≤ 3) (hj : j ≤ q) : phi q j 0 = if j = 0 then 1 else 0 := by
  interval_cases q <;> interval_cases j <;> simp [phi, basisInTime] <;> norm_num

/-- C40: at the end of each slab the function equals the slab's top value. -/
theorem C40_top (hD : C.D.Ok) (v : Vec) (n : ℕ) : C.uh v n ((n + 1) * C.D.dt) = C.node v n C.D.q := by
  have hdt := hD.dt_ne
  rw [uh_eq_recon hdt]
  have hτ : ((n : ℝ) + 1) * C.D.dt / C.D.dt - n = 1 := by field_simp; ring
  simp only [Cfg.recon, hτ]
  rw [Finset.sum_congr rfl fun j hj => by
    rw [phi_at_one (q_le hD) (Nat.lt_succ_iff.1 (Finset.mem_range.1 hj))]]
  simp

/-- C40: continuity across slab boundaries. -/
theorem C40_matching (hD : C.D.Ok) (v : Vec) (n : ℕ) :
    C.uh v (n + 1) ((n + 1 : ℕ) * C.D.dt) = C.uh v n ((n + 1 : ℕ) * C.D.dt) := by
  have hdt := hD.dt_ne
  have := C40_top hD v n
  push_cast
  rw [this, uh_eq_recon hdt]
  have hτ : ((n : ℝ) + 1) * C.D.dt / C.D.dt - (n + 1 : ℕ) = 0 := by push_cast; field_simp; ring
  simp only [Cfg.recon, hτ]
  rw [Finset.sum_congr rfl fun j hj => by
    rw [phi_at_zero (q_le hD) (Nat.lt_succ_iff.1 (Finset.mem_range.1 hj))]]
  simp

/-- C40: inside a slab the quantity used as the time derivative is the derivative (of every linear
functional, e.g. of every nodal value). -/
theorem C40_derivative (hD : C.D.Ok) (v : Vec) (n : ℕ) (ℓ : V →ₗ[ℝ] ℝ) (t : ℝ) :
    HasDerivAt (fun t => ℓ (C.uh v n t)) (ℓ (C.uhPrime v n t)) t := by
  have hdt := hD.dt_ne
  have hτ : HasDerivAt (fun t : ℝ => t / C.D.dt - n) (1 / C.D.dt) t := by
    simpa using ((hasDerivAt_id t).div_const C.D.dt).sub_const (n : ℝ)
  have h1 : HasDerivAt (fun t => ∑ j ∈ range (C.D.q + 1), phi C.D.q j (t / C.D.dt - n) * ℓ (C.node v n j))
      (∑ j ∈ range (C.D.q + 1), 1 / C.D.dt * dphi C.D.q j (t / C.D.dt - n) * ℓ (C.node v n j)) t := by
    refine HasDerivAt.fun_sum fun j hj => ?_
    have := ((hasDerivAt_phi (q_le hD) (Nat.lt_succ_iff.1 (Finset.mem_range.1 hj)) (t / C.D.dt - n)).comp t hτ).mul_const
      (ℓ (C.node v n j))
    refine HasDerivAt.congr_deriv this ?_
    ring
  have h2 : HasDerivAt (fun t : ℝ => (2 * (t / C.D.dt - n) - 1) * ((t / C.D.dt - n) - 1))
      (2 / C.D.dt * ((2 * (t / C.D.dt - n) - 1) - 1 / 2)) t := by
    have := (((hτ.const_mul 2).sub_const 1).mul (hτ.sub_const 1))
    refine HasDerivAt.congr_deriv this ?_
    ring
  have hf : (fun t => ℓ (C.uh v n t)) = fun t => (∑ j ∈ range (C.D.q + 1), phi C.D.q j (t / C.D.dt - n) * ℓ (C.node v n j))
      - (2 * (t / C.D.dt - n) - 1) * ((t / C.D.dt - n) - 1) *
        (if n = 0 then 0 else ℓ (C.node v n 0 - C.node v (n - 1) C.D.q)) := by
    funext t
    rw [uh_eq_recon hdt, Cfg.recon, map_sub, map_sum]
    by_cases hn : n = 0 <;> simp [hn]
  have hg : ℓ (C.uhPrime v n t) = (∑ j ∈ range (C.D.q + 1), 1 / C.D.dt * dphi C.D.q j (t / C.D.dt - n) * ℓ (C.node v n j))
      - 2 / C.D.dt * ((2 * (t / C.D.dt - n) - 1) - 1 / 2) *
        (if n = 0 then 0 else ℓ (C.node v n 0 - C.node v (n - 1) C.D.q)) := by
    simp only [Cfg.uhPrime, uhPrimeAt, ufSum_eq, local_time hdt, local_arg hdt, dThetaRef_eq]
    by_cases hn : 0 < n
    · rw [if_pos hn, if_neg hn.ne', top_index hn, map_sub, map_sum]
      simp [Cfg.node]
    · rw [if_neg hn, if_pos (by omega), map_sum]
      simp [Cfg.node]
  rw [hf, hg]
  exact h1.sub (h2.mul_const _)

/-- C40: what the code evaluates is the reconstruction and its derivative. -/
theorem C40_recon (hD : C.D.Ok) (v : Vec) (n : ℕ) (t : ℝ) :
    C.uh v n t = C.recon v n t ∧ C.uhPrime v n t = C.reconDot v n t :=
  ⟨uh_eq_recon hD.dt_ne v n t, uhPrime_eq_reconDot hD.dt_ne v n t⟩

theorem C40_recon_derivative (hD : C.D.Ok) (v : Vec) (n : ℕ) (ℓ : V →ₗ[ℝ] ℝ) (t : ℝ) :
    HasDerivAt (fun t => ℓ (C.recon v n t)) (ℓ (C.reconDot v n t)) t := by
  have := C40_derivative hD v n ℓ t
  simpa only [uh_eq_recon hD.dt_ne, uhPrime_eq_reconDot hD.dt_ne] using this

/-- The reconstruction as one function of time: on the slab `(n·dt, (n+1)·dt]` it is the
reconstruction of that slab. -/
noncomputable def Cfg.uhGlobal (C : Cfg V) (v : Vec) (t : ℝ) : V := C.uh v (⌈t / C.D.dt⌉₊ - 1) t

theorem uhGlobal_eq (hD : C.D.Ok) (hdt : 0 < C.D.dt) (v : Vec) (n : ℕ) {t : ℝ} (h1 : n * C.D.dt ≤ t)
    (h2 : t ≤ (n + 1) * C.D.dt) : C.uhGlobal v t = C.uh v n t := by
  unfold Cfg.uhGlobal
  rcases h1.eq_or_lt with h | h
  · subst h
    rw [mul_div_assoc, div_self hdt.ne', mul_one, Nat.ceil_natCast]
    cases n with
    | zero => rfl
    | succ n => exact (C40_matching hD v n).symm
  · have : ⌈t / C.D.dt⌉₊ = n + 1 := by
      rw [Nat.ceil_eq_iff (by omega)]
      simp only [Nat.add_sub_cancel, Nat.cast_add, Nat.cast_one]
      exact ⟨(lt_div_iff₀ hdt).2 h, (div_le_iff₀ hdt).2 h2⟩
    rw [this]; rfl

/-- C40: the reconstruction is continuous on the whole time interval `[0, N·dt]`. -/
theorem C40_continuous (hD : C.D.Ok) (hdt : 0 < C.D.dt) (v : Vec) (ℓ : V →ₗ[ℝ] ℝ) (n : ℕ) :
    ContinuousOn (fun t => ℓ (C.uhGlobal v t)) (Set.Icc 0 (n * C.D.dt)) := by
  induction n with
  | zero => simp
  | succ n ih =>
    have hn : (n : ℝ) * C.D.dt ≤ (n + 1 : ℕ) * C.D.dt := by push_cast; nlinarith
    rw [← Set.Icc_union_Icc_eq_Icc (by positivity) hn]
    refine ih.union_of_isClosed ?_ isClosed_Icc isClosed_Icc
    have : ContinuousOn (fun t => ℓ (C.uh v n t)) (Set.Icc (n * C.D.dt) ((n + 1 : ℕ) * C.D.dt)) :=
      fun t _ => (C40_derivative hD v n ℓ t).continuousAt.continuousWithinAt
    exact this.congr fun t ht => by rw [uhGlobal_eq hD hdt v n ht.1 (by simpa using ht.2)]

/-! ## What the constructor guarantees about the error measurement -/

/-- `C` is a configuration of an object built by the constructor as `B`. -/
structure Cfg.Of (C : Cfg V) (B : Built V) : Prop where
  D : C.D = B.D
  T : C.T = B.T
  dsol : C.dsol = B.dsol
  samples : C.samples = B.samples
  pts : B.qrHo.currentPts 0 1 = .ok (some C.ptsHo)
  ws : B.qrHo.tWeights 1 = .ok (some C.wsHo)

structure Cfg.Meas (C : Cfg V) : Prop where
  ok : C.D.Ok
  N_pos : 0 < C.D.N
  T_pos : 0 < C.T
  dt : C.D.dt = C.T / C.D.N
  samples : C.samples = linspace 0 C.T 105
  ws : C.wsHo = [0.04, 0.223104, 0.3118265, 0.281356, 0.1437135]
  pts : C.ptsHo.length = 5 ∧ ∀ p ∈ C.ptsHo, 0 ≤ p ∧ p ≤ 1

theorem Meas.of_construct {interp : V →ₗ[ℝ] V} {a : Args V} {om om' : DataDomain V} {B : Built V}
    (h : construct interp a om = (.ok B, om')) (hN : 0 < a.N) (hT : 0 < a.T) (hC : C.Of B) : C.Meas := by
  have hs : a.Supported := by
    by_contra hs
    have := C36_key_error (interp := interp) (om := om).2 ⟨hN.ne', hs⟩
    rw [h] at this; cases this
  obtain ⟨b, hb, e⟩ := construct_run (interp := interp) (om := om) hN.ne' hs
  rw [h] at e
  obtain rfl : B = builtOf interp a om b := by
    have := congrArg Prod.fst e
    exact Except.ok.inj this
  have hN' : (a.N.toNat : ℝ) = (a.N : ℝ) := by exact_mod_cast congrArg (Int.cast (R := ℝ)) (Int.toNat_of_nonneg hN.le)
  refine ⟨?_, ?_, by rw [hC.T]; exact hT, ?_, by rw [hC.samples, hC.T]; rfl, ?_, ?_⟩
  · rw [hC.D]
    refine ⟨getElmatTime_ok (by simp [builtOf]; have := hs.1; omega) (by simp [builtOf]; have := hs.2; omega), ?_⟩
    exact div_ne_zero hT.ne' (by exact_mod_cast hN.ne')
  · rw [hC.D]; simp only [builtOf]; omega
  · rw [hC.D, hC.T]; simp only [builtOf, hN']
  · have := hC.ws
    simp [builtOf, QuadRule.tWeights, gaussRadau] at this
    rw [← this]
    norm_num
  · have := hC.pts
    simp [builtOf, QuadRule.currentPts, gaussRadau] at this
    rw [← this]
    refine ⟨rfl, ?_⟩
    norm_num

variable (hM : C.Meas)
include hM

theorem Cfg.Meas.dt_pos : 0 < C.D.dt := by
  rw [hM.dt]; exact div_pos hM.T_pos (by exact_mod_cast hM.N_pos)

theorem Cfg.Meas.T_eq : C.T = C.D.N * C.D.dt := by
  have : (C.D.N : ℝ) ≠ 0 := by exact_mod_cast hM.N_pos.ne'
  rw [hM.dt]; field_simp

/-! ## C41 -/

/-- C41: the sample times are 105 equidistant times from 0 to `T`. -/
theorem C41_samples : C.samples.length = 105 ∧ (∀ t ∈ C.samples, 0 ≤ t ∧ t ≤ C.T) ∧ 0 ∈ C.samples ∧ C.T ∈ C.samples ∧
    ∀ i : ℕ, i < 105 → C.samples.getD i 0 = i / 104 * C.T := by
  have hT := hM.T_pos
  rw [hM.samples]
  refine ⟨by simp [linspace], ?_, ?_, ?_, ?_⟩
  · simp only [linspace, List.mem_map, List.mem_range]
    rintro t ⟨i, hi, rfl⟩
    have hi' : (i : ℝ) ≤ 104 := by exact_mod_cast Nat.lt_succ_iff.1 hi
    norm_num
    constructor
    · positivity
    · nlinarith
  · simp only [linspace, List.mem_map, List.mem_range]; exact ⟨0, by norm_num, by simp⟩
  · simp only [linspace, List.mem_map, List.mem_range]; exact ⟨104, by norm_num, by norm_num; ring⟩
  · intro i hi
    rw [linspace, List.getD_eq_getElem _ _ (by simpa using hi)]
    simp only [List.getElem_map, List.getElem_range]
    norm_num
    ring

/-- Time `t` is measured with slab `n`. -/
def InSlab (C : Cfg V) (n : ℕ) (t : ℝ) : Prop := n * C.D.dt ≤ t ∧ t ≤ n * C.D.dt + C.D.dt

/-- C41: every sample time is measured in at least one slab. -/
theorem C41_covered {t : ℝ} (ht : t ∈ C.samples) : ∃ n < C.D.N, InSlab C n t := by
  obtain ⟨h0, hT⟩ := (C41_samples hM).2.1 t ht
  have hdt := hM.dt_pos
  rcases hT.eq_or_lt with rfl | hT
  · refine ⟨C.D.N - 1, Nat.sub_lt hM.N_pos one_pos, ?_⟩
    have : ((C.D.N - 1 : ℕ) : ℝ) = C.D.N - 1 := by rw [Nat.cast_sub hM.N_pos]; simp
    rw [InSlab, this, hM.T_eq]
    constructor <;> nlinarith
  · refine ⟨⌊t / C.D.dt⌋₊, ?_, ?_, ?_⟩
    · rw [Nat.floor_lt (by positivity), div_lt_iff₀ hdt, ← hM.T_eq]; exact hT
    · rw [← le_div_iff₀ hdt]; exact Nat.floor_le (by positivity)
    · have := (Nat.lt_floor_add_one (t / C.D.dt)).le
      rw [div_le_iff₀ hdt] at this
      linarith

/-- C41: two slabs that measure the same time are neighbours and the time is their common boundary. -/
theorem C41_neighbours {t : ℝ} {n n' : ℕ} (hn : n < n') (h : InSlab C n t) (h' : InSlab C n' t) :
    n' = n + 1 ∧ t = n' * C.D.dt := by
  have hdt := hM.dt_pos
  obtain ⟨h1, h2⟩ := h
  obtain ⟨h3, h4⟩ := h'
  have h5 : (n' : ℝ) ≤ n + 1 := by
    by_contra hc
    push Not at hc
    nlinarith
  have h6 : n' ≤ n + 1 := by exact_mod_cast h5
  obtain rfl : n' = n + 1 := by omega
  refine ⟨rfl, le_antisymm ?_ h3⟩
  push_cast; linarith

/-- C41: no time is measured in more than two slabs. -/
theorem C41_at_most_two (t : ℝ) : ({n | n < C.D.N ∧ InSlab C n t} : Set ℕ).encard ≤ 2 := by
  by_cases he : ({n | n < C.D.N ∧ InSlab C n t} : Set ℕ) = ∅
  · rw [he]; simp
  obtain ⟨m, hm⟩ := Set.nonempty_iff_ne_empty.2 he
  classical
  have hex : ∃ n, n < C.D.N ∧ InSlab C n t := ⟨m, hm⟩
  set k := Nat.find hex with hk
  have hks := Nat.find_spec hex
  have hsub : ({n | n < C.D.N ∧ InSlab C n t} : Set ℕ) ⊆ {k, k + 1} := by
    rintro n ⟨hn, hs⟩
    have hle : k ≤ n := Nat.find_min' hex ⟨hn, hs⟩
    rcases hle.eq_or_lt with h | h
    · exact .inl h.symm
    · exact .inr (C41_neighbours hM h hks.2 hs).1
  exact (Set.encard_le_encard hsub).trans (by rw [Set.encard_pair (by omega)])

/-- C41: a time on a slab boundary gives the same displacement from both sides. -/
theorem C41_same_value (v : Vec) {t : ℝ} {n n' : ℕ} (h : InSlab C n t) (h' : InSlab C n' t) :
    C.uh v n t = C.uh v n' t := by
  wlog hn : n ≤ n' generalizing n n'
  · exact (this h' h (by omega)).symm
  rcases hn.eq_or_lt with rfl | hn
  · rfl
  · obtain ⟨rfl, rfl⟩ := C41_neighbours hM hn h h'
    exact (C40_matching hM.ok v n).symm

omit hM

/-! ## The report -/

/-- `‖u‖` in the mass inner product. -/
noncomputable def Space.norm (S : Space V) (u : V) : ℝ := Real.sqrt (S.mass u u)

/-- What `measured_errors` must report for the vector `v`. -/
structure Report (C : Cfg V) (v : Vec) (r : ErrDict) : Prop where
  l2T : r.l2T = C.S.norm (C.node v (C.D.N - 1) C.D.q - C.D.sol C.T)
  linfU : IsGreatest {e | ∃ n < C.D.N, ∃ t ∈ C.samples, InSlab C n t ∧ e = C.S.norm (C.recon v n t - C.D.sol t)} r.linfU
  linfUt : IsGreatest {e | ∃ n < C.D.N, ∃ t ∈ C.samples, InSlab C n t ∧ e = C.S.norm (C.reconDot v n t - C.dsol t)} r.linfUt
  l2l2Ut : r.l2l2Ut = Real.sqrt (∑ n ∈ range C.D.N, ((C.ptsHo.zip C.wsHo).map fun p =>
    p.2 * C.D.dt * C.S.norm (C.reconDot v n ((n + p.1) * C.D.dt) - C.dsol ((n + p.1) * C.D.dt)) ^ 2).sum)

theorem Report.of (hdt : C.D.dt ≠ 0) {v : Vec} {r : ErrDict}
    (h1 : r.l2T = C.S.norm (C.node v (C.D.N - 1) C.D.q - C.D.sol C.T))
    (h2 : IsGreatest {e | ∃ n < C.D.N, ∃ t ∈ C.samples, InSlab C n t ∧ e = C.S.norm (C.uh v n t - C.D.sol t)} r.linfU)
    (h3 : IsGreatest {e | ∃ n < C.D.N, ∃ t ∈ C.samples, InSlab C n t ∧ e = C.S.norm (C.uhPrime v n t - C.dsol t)} r.linfUt)
    (h4 : r.l2l2Ut = Real.sqrt (∑ n ∈ range C.D.N, ((C.ptsHo.zip C.wsHo).map fun p =>
      p.2 * C.D.dt * C.S.norm (C.uhPrime v n ((n + p.1) * C.D.dt) - C.dsol ((n + p.1) * C.D.dt)) ^ 2).sum)) :
    Report C v r := by
  simp only [uh_eq_recon hdt, uhPrime_eq_reconDot hdt] at h2 h3 h4
  exact ⟨h1, h2, h3, h4⟩

theorem pyMax_spec {l : List ℝ} (h : l ≠ []) : ∃ m, pyMax l = .ok m ∧ m ∈ l ∧ ∀ x ∈ l, x ≤ m := by
  obtain ⟨a, l, rfl⟩ := List.exists_cons_of_ne_nil h
  clear h
  induction l generalizing a with
  | nil => exact ⟨a, rfl, by simp, by simp⟩
  | cons b l ih =>
    obtain ⟨m, h1, h2, h3⟩ := ih (max a b)
    refine ⟨m, h1, ?_, ?_⟩
    · simp only [List.mem_cons] at h2 ⊢
      rcases h2 with h2 | h2
      · rcases max_choice a b with h | h <;> simp [h2, h]
      · simp [h2]
    · have := h3 (max a b) (by simp)
      intro x hx
      simp only [List.mem_cons] at hx
      rcases hx with rfl | rfl | hx
      · exact (le_max_left _ _).trans this
      · exact (le_max_right _ _).trans this
      · exact h3 x (by simp [hx])

theorem norm_sq {S : Space V} (hS : ∀ u, 0 ≤ S.mass u u) (u : V) : S.norm u ^ 2 = S.mass u u := Real.sq_sqrt (hS u)

theorem mem_inSlab {n : ℕ} {t : ℝ} : t ∈ C.inSlab n ↔ t ∈ C.samples ∧ InSlab C n t := by
  simp [Cfg.inSlab, InSlab]

theorem quadErr_nonneg (hM : C.Meas) (hS : ∀ u, 0 ≤ C.S.mass u u) (v : Vec) (n : ℕ) {p : ℝ × ℝ} (hp : p ∈ C.ptsHo.zip C.wsHo) :
    0 ≤ C.quadErr v n p := by
  have h2 : p.2 ∈ C.wsHo := (List.of_mem_zip (a := p.1) (b := p.2) hp).2
  have h3 : 0 ≤ p.2 := by
    rw [hM.ws] at h2
    simp only [List.mem_cons, List.not_mem_nil, or_false] at h2
    rcases h2 with h | h | h | h | h <;> rw [h] <;> norm_num
  exact mul_nonneg (mul_nonneg h3 hM.dt_pos.le) (hS _)

theorem total_nonneg (hM : C.Meas) (hS : ∀ u, 0 ≤ C.S.mass u u) (v : Vec) :
    0 ≤ ((List.range C.D.N).map fun n => ((C.ptsHo.zip C.wsHo).map (C.quadErr v n)).sum).sum := by
  refine List.sum_nonneg ?_
  simp only [List.mem_map]
  rintro _ ⟨n, -, rfl⟩
  refine List.sum_nonneg ?_
  simp only [List.mem_map]
  rintro _ ⟨p, hp, rfl⟩
  exact quadErr_nonneg hM hS v n hp

theorem quadErr_eq (hS : ∀ u, 0 ≤ C.S.mass u u) (v : Vec) (n : ℕ) (p : ℝ × ℝ) : C.quadErr v n p =
    p.2 * C.D.dt * C.S.norm (C.uhPrime v n ((n + p.1) * C.D.dt) - C.dsol ((n + p.1) * C.D.dt)) ^ 2 := by
  rw [norm_sq hS, Cfg.quadErr, show (n : ℝ) * C.D.dt + C.D.dt * p.1 = (n + p.1) * C.D.dt by ring]; rfl

/-- C41, C42: `measured_errors` on an object whose finite elements are set up returns the report for
the vector it is given; the only exceptions are failures of external calls.  In particular both
maxima are defined. -/
theorem C42_report (hM : C.Meas) (hS : ∀ u, 0 ≤ C.S.mass u u) {w : World V}
    (hd : w.obj.dofmaps = some (mkDofmaps C)) (x : Ref) :
    Run w (measuredErrors C x w) fun r _ => Report C (w.heap x) r := by
  unfold measuredErrors
  rw [M.bind_ok (loadFinal_run hM.N_pos hd x)]
  refine Run.rebase (w₁ := { w with
      heap := Function.update w.heap .uh (w.heap x)
      obj := { w.obj with
        u10 := some (nodeAt C.fe (w.heap x) (C.full.collapse 0 ((C.D.q + 1) * C.D.N - 1)))
        u20 := some (nodeAt C.fe (w.heap x) (C.full.collapse 1 ((C.D.q + 1) * C.D.N - 1))) } }) rfl rfl ?_
  refine Run.bind (Run.ext _) ?_
  rintro - w₂ ⟨o2, u2⟩
  rw [M.bind_ok (M.attr_some (by rw [o2]))]
  refine Run.bind (errLoop_run (w := w₂) (by rw [o2]; exact hd)) ?_
  rintro acc w₃ ⟨rfl, o3⟩
  have hu : w₂.heap .uh = w.heap x := by rw [u2]; simp
  rw [hu]
  obtain ⟨n₀, hn₀, ht₀⟩ := C41_covered hM (C41_samples hM).2.2.1
  have hne : ∀ f : ℕ → ℝ → ℝ, ((List.range C.D.N).flatMap fun n => (C.inSlab n).map (f n)) ≠ [] := fun f => by
    refine List.ne_nil_of_mem (a := f n₀ 0) ?_
    simp only [List.mem_flatMap, List.mem_range, List.mem_map]
    exact ⟨n₀, hn₀, 0, mem_inSlab.2 ⟨(C41_samples hM).2.2.1, ht₀⟩, rfl⟩
  have hgr : ∀ (f : ℕ → ℝ → ℝ) m, m ∈ ((List.range C.D.N).flatMap fun n => (C.inSlab n).map (f n)) →
      (∀ x ∈ ((List.range C.D.N).flatMap fun n => (C.inSlab n).map (f n)), x ≤ m) →
      IsGreatest {e | ∃ n < C.D.N, ∃ t ∈ C.samples, InSlab C n t ∧ e = f n t} m := by
    intro f m h1 h2
    have hmem : ∀ e, e ∈ ((List.range C.D.N).flatMap fun n => (C.inSlab n).map (f n)) ↔
        ∃ n < C.D.N, ∃ t ∈ C.samples, InSlab C n t ∧ e = f n t := fun e => by
      simp only [List.mem_flatMap, List.mem_range, List.mem_map, mem_inSlab]
      constructor
      · rintro ⟨n, h, t, ⟨h1, h2⟩, rfl⟩; exact ⟨n, h, t, h1, h2, rfl⟩
      · rintro ⟨n, h, t, h1, h2, rfl⟩; exact ⟨n, h, t, ⟨h1, h2⟩, rfl⟩
    exact ⟨(hmem m).1 h1, fun e he => h2 e ((hmem e).2 he)⟩
  obtain ⟨m1, p1, a1, b1⟩ := pyMax_spec (hne (C.errU (w.heap x)))
  obtain ⟨m2, p2, a2, b2⟩ := pyMax_spec (hne (C.errUt (w.heap x)))
  rw [M.bind_ok (by rw [M.lift_run, p1]), M.bind_ok (by rw [M.lift_run, p2]), M.bind_ok (by
    rw [M.lift_run, mathSqrt, if_neg (not_lt.2 (total_nonneg hM hS _))])]
  refine ⟨Report.of hM.ok.dt_ne ?_ (hgr _ m1 a1 b1) (hgr _ m2 a2 b2) ?_, rfl, le_rfl⟩
  · have : (C.D.q + 1) * C.D.N - 1 = (C.D.N - 1) * (C.D.q + 1) + C.D.q := by rw [mul_comm, top_index hM.N_pos]
    rw [this]; rfl
  · have hq : ∀ n, C.quadErr (w.heap x) n = _ := fun n => funext (quadErr_eq hS (w.heap x) n)
    simp only [hq]
    congr 1

/-- C41: the maxima are defined, i.e. measuring errors never raises `ValueError`; without failures of
external calls it returns a report. -/
theorem C41_maxima_defined (hM : C.Meas) (hS : ∀ u, 0 ≤ C.S.mass u u) {w : World V}
    (hd : w.obj.dofmaps = some (mkDofmaps C)) (x : Ref) :
    (measuredErrors C x w).1 ≠ .error .valueError ∧
    (w.NoFail → ∃ r w', measuredErrors C x w = (.ok r, w') ∧ Report C (w.heap x) r) := by
  have h := C42_report hM hS hd x
  refine ⟨fun he => ?_, fun hf => h.noFail hf⟩
  rcases hx : measuredErrors C x w with ⟨e | a, w'⟩
  · rw [hx] at h he
    cases he
    exact absurd h.1 (by simp)
  · rw [hx] at he; cases he

/-! ## C42 -/

/-- C42: reported errors are non-negative. -/
theorem C42_nonneg {v : Vec} {r : ErrDict} (h : Report C v r) :
    0 ≤ r.l2T ∧ 0 ≤ r.linfU ∧ 0 ≤ r.linfUt ∧ 0 ≤ r.l2l2Ut := by
  refine ⟨h.l2T ▸ Real.sqrt_nonneg _, ?_, ?_, h.l2l2Ut ▸ Real.sqrt_nonneg _⟩
  · obtain ⟨n, -, t, -, -, e⟩ := h.linfU.1
    rw [e]; exact Real.sqrt_nonneg _
  · obtain ⟨n, -, t, -, -, e⟩ := h.linfUt.1
    rw [e]; exact Real.sqrt_nonneg _

theorem final_inSlab (hM : C.Meas) : InSlab C (C.D.N - 1) C.T := by
  have hdt := hM.dt_pos
  have : ((C.D.N - 1 : ℕ) : ℝ) = C.D.N - 1 := by rw [Nat.cast_sub hM.N_pos]; simp
  rw [InSlab, this, hM.T_eq]
  constructor <;> nlinarith

theorem final_value (hM : C.Meas) (v : Vec) : C.uh v (C.D.N - 1) C.T = C.node v (C.D.N - 1) C.D.q := by
  rw [← C40_top hM.ok v (C.D.N - 1)]
  have : ((C.D.N - 1 : ℕ) : ℝ) + 1 = C.D.N := by rw [Nat.cast_sub hM.N_pos]; simp
  rw [this, ← hM.T_eq]

/-- C42: the maximal displacement error is at least the final one. -/
theorem C42_final_le_max (hM : C.Meas) {v : Vec} {r : ErrDict} (h : Report C v r) : r.l2T ≤ r.linfU := by
  rw [h.l2T]
  refine h.linfU.2 ⟨C.D.N - 1, Nat.sub_lt hM.N_pos one_pos, C.T, (C41_samples hM).2.2.2.1, final_inSlab hM, ?_⟩
  rw [← uh_eq_recon hM.ok.dt_ne, final_value hM]

/-- Interpolation at the time nodes reproduces polynomials up to the order, with their derivative. -/
theorem interp_monomial {q i : ℕ} (hq : q ≤ 3) (hi : i ≤ q) (a b τ : ℝ) :
    ∑ j ∈ range (q + 1), phi q j τ * (a + b * (j / q)) ^ i = (a + b * τ) ^ i ∧
    ∑ j ∈ range (q + 1), dphi q j τ * (a + b * (j / q)) ^ i = i * b * (a + b * τ) ^ (i - 1) := by
  interval_cases q <;> interval_cases i <;> constructor <;>
    simp [sum_range_succ, phi, dphi, basisInTime] <;> ring

/-- The exact solution is, on each slab, a polynomial of degree at most `q` in time, and `dsol` is
its time derivative there. -/
def PolyInTime (C : Cfg V) : Prop :=
  ∀ n < C.D.N, ∃ c : ℕ → V, ∀ t, InSlab C n t →
    C.D.sol t = ∑ i ∈ range (C.D.q + 1), t ^ i • c i ∧
    C.dsol t = ∑ i ∈ range (C.D.q + 1), (i * t ^ (i - 1)) • c i

/-- The displacement part of `v` interpolates the exact solution at the time nodes. -/
def Interpolates (C : Cfg V) (v : Vec) : Prop :=
  ∀ n < C.D.N, ∀ j ≤ C.D.q, C.node v n j = C.D.sol (n * C.D.dt + C.D.dt * (j / C.D.q))

theorem node_inSlab (hM : C.Meas) {n j : ℕ} (hj : j ≤ C.D.q) : InSlab C n (n * C.D.dt + C.D.dt * (j / C.D.q)) := by
  have hdt := hM.dt_pos
  have h1 : (j : ℝ) / C.D.q ≤ 1 := div_le_one_of_le₀ (by exact_mod_cast hj) (by positivity)
  have h2 : 0 ≤ (j : ℝ) / C.D.q := by positivity
  constructor <;> nlinarith

theorem exact_values (hM : C.Meas) (hp : PolyInTime C) {v : Vec} (hv : Interpolates C v) {n : ℕ} (hn : n < C.D.N)
    {t : ℝ} (ht : InSlab C n t) : C.uh v n t = C.D.sol t ∧ C.uhPrime v n t = C.dsol t := by
  have hdt := hM.ok.dt_ne
  have hq := q_le hM.ok
  obtain ⟨c, hc⟩ := hp n hn
  have hnode : ∀ j ≤ C.D.q, C.node v n j
      = ∑ i ∈ range (C.D.q + 1), ((n * C.D.dt + C.D.dt * (j / C.D.q)) ^ i) • c i := fun j hj => by
    rw [hv n hn j hj, (hc _ (node_inSlab hM hj)).1]
  have hjump : 0 < n → C.node v n 0 - C.node v (n - 1) C.D.q = 0 := fun h0 => by
    have e : ((n - 1 : ℕ) : ℝ) = n - 1 := by rw [Nat.cast_sub h0]; simp
    obtain ⟨c', hc'⟩ := hp (n - 1) (by omega)
    rw [hv n hn 0 (Nat.zero_le _), hv (n - 1) (by omega) C.D.q le_rfl, sub_eq_zero]
    by_cases hq0 : C.D.q = 0
    · have h1 := (hc' _ (node_inSlab hM (n := n - 1) (j := C.D.q) le_rfl)).1
      have h2 := (hc' (n * C.D.dt + C.D.dt * ((0 : ℕ) / C.D.q)) (by
        have := hM.dt_pos
        rw [InSlab, e]; simp; constructor <;> nlinarith)).1
      rw [h1, h2]
      simp [hq0]
    · have : (C.D.q : ℝ) ≠ 0 := by exact_mod_cast hq0
      congr 1
      rw [e, div_self this]; simp; ring
  have hτ : ∀ i, ((n : ℝ) * C.D.dt + C.D.dt * (t / C.D.dt - n)) ^ i = t ^ i := fun i => by
    congr 1; field_simp; ring
  have h1 : ∑ j ∈ range (C.D.q + 1), phi C.D.q j (t / C.D.dt - n) • C.node v n j = C.D.sol t := by
    rw [(hc t ht).1, Finset.sum_congr rfl fun j hj => by rw [hnode j (Nat.lt_succ_iff.1 (Finset.mem_range.1 hj)), Finset.smul_sum],
      Finset.sum_comm]
    refine Finset.sum_congr rfl fun i hi => ?_
    simp only [smul_smul]
    rw [← Finset.sum_smul, (interp_monomial hq (Nat.lt_succ_iff.1 (Finset.mem_range.1 hi)) _ _ _).1, hτ]
  have h2 : ∑ j ∈ range (C.D.q + 1), (1 / C.D.dt * dphi C.D.q j (t / C.D.dt - n)) • C.node v n j = C.dsol t := by
    rw [(hc t ht).2, Finset.sum_congr rfl fun j hj => by rw [hnode j (Nat.lt_succ_iff.1 (Finset.mem_range.1 hj)), Finset.smul_sum],
      Finset.sum_comm]
    refine Finset.sum_congr rfl fun i hi => ?_
    simp only [smul_smul, mul_assoc]
    rw [← Finset.sum_smul, ← Finset.mul_sum, (interp_monomial hq (Nat.lt_succ_iff.1 (Finset.mem_range.1 hi)) _ _ _).2, hτ]
    congr 1
    field_simp
  constructor
  · rw [uh_eq_recon hdt, Cfg.recon, h1]
    by_cases h0 : n = 0
    · simp [h0]
    · rw [if_neg h0, hjump (by omega), smul_zero, sub_zero]
  · simp only [Cfg.uhPrime, uhPrimeAt, ufSum_eq, local_time hdt]
    by_cases h0 : 0 < n
    · rw [if_pos h0, top_index h0]
      have := hjump h0
      simp only [Cfg.node, add_zero] at this h2
      simp only [add_zero, this, smul_zero, sub_zero]
      exact h2
    · rw [if_neg h0]; exact h2

/-- C42: for an exact solution that is polynomial of degree `≤ q` in time (on each slab, hence
continuous) and a vector that interpolates it, every reported error is zero. -/
theorem C42_exact (hM : C.Meas) (hp : PolyInTime C) {v : Vec} (hv : Interpolates C v) {r : ErrDict}
    (h : Report C v r) : r.l2T = 0 ∧ r.linfU = 0 ∧ r.linfUt = 0 ∧ r.l2l2Ut = 0 := by
  have hn0 : C.S.norm 0 = 0 := by simp [Space.norm]
  refine ⟨?_, ?_, ?_, ?_⟩
  · rw [h.l2T, ← final_value hM, (exact_values hM hp hv (Nat.sub_lt hM.N_pos one_pos) (final_inSlab hM)).1, sub_self, hn0]
  · obtain ⟨n, hn, t, -, ht, e⟩ := h.linfU.1
    rw [e, ← uh_eq_recon hM.ok.dt_ne, (exact_values hM hp hv hn ht).1, sub_self, hn0]
  · obtain ⟨n, hn, t, -, ht, e⟩ := h.linfUt.1
    rw [e, ← uhPrime_eq_reconDot hM.ok.dt_ne, (exact_values hM hp hv hn ht).2, sub_self, hn0]
  · rw [h.l2l2Ut, Finset.sum_eq_zero, Real.sqrt_zero]
    intro n hn
    refine List.sum_eq_zero ?_
    simp only [List.mem_map]
    rintro _ ⟨p, hp', rfl⟩
    have hb := hM.pts.2 p.1 (List.of_mem_zip (a := p.1) (b := p.2) hp').1
    have hdt := hM.dt_pos
    rw [← uhPrime_eq_reconDot hM.ok.dt_ne, (exact_values hM hp hv (Finset.mem_range.1 hn) ⟨by nlinarith, by nlinarith⟩).2, sub_self, hn0]
    ring

/-! ## Non-vacuity -/

namespace Example
open Polynomial

/-- The concrete configuration (two slabs on `[0,1]`, linear in time, exact solution `t`) with the
sample times and the quadrature rule of the constructor. -/
noncomputable def cfgM : Cfg ℝ[X] :=
  { cfg false false with
    dsol := fun _ => 1
    samples := linspace 0 1 105
    ptsHo := [0, 0.13976, 0.4164095, 0.723157, 0.942896]
    wsHo := [0.04, 0.223104, 0.3118265, 0.281356, 0.1437135] }

theorem cfgM_meas : cfgM.Meas where
  ok := disc_ok false false
  N_pos := by decide
  T_pos := one_pos
  dt := by norm_num [cfgM, cfg, disc]
  samples := rfl
  ws := rfl
  pts := ⟨rfl, by norm_num [cfgM]⟩

/-- A configuration as the constructor makes it. -/
example : ∃ (B : Built ℝ[X]) (om' : DataDomain ℝ[X]) (C : Cfg ℝ[X]),
    construct LinearMap.id (args false) ⟨1, false⟩ = (.ok B, om') ∧ C.Of B ∧ C.Meas := by
  obtain ⟨B, om', h⟩ := construct_ok false ⟨1, false⟩
  obtain ⟨b, -, e⟩ := construct_run (interp := LinearMap.id) (a := args false) (om := ⟨1, false⟩) (by simp [args])
    (args_supported false)
  have hB : B = builtOf LinearMap.id (args false) ⟨1, false⟩ b := by
    rw [e] at h; exact (Except.ok.inj (Prod.ext_iff.1 h).1).symm
  have hC : Cfg.Of { cfgM with
      D := B.D, T := B.T, dsol := B.dsol, samples := B.samples
      ptsHo := ([-1, -0.72048, -0.167181, 0.446314, 0.885792] : List ℝ).map fun pt => 0.5 * (1 - 0) * pt + 0.5 * (1 + 0)
      wsHo := ([0.08, 0.446208, 0.623653, 0.562712, 0.287427] : List ℝ).map fun w => 0.5 * 1 * w } B :=
    ⟨rfl, rfl, rfl, rfl, by rw [hB]; rfl, by rw [hB]; rfl⟩
  exact ⟨B, om', _, h, hC, Meas.of_construct h (by simp [args]) (by simp [args]) hC⟩

/-- The vector whose displacement part interpolates `t`. -/
noncomputable def linVec : Vec := fun d => (((d % 4 / 2 : ℕ) : ℝ) + ((d % 4 % 2 : ℕ) : ℝ)) / 2

theorem linVec_node {i : ℕ} (hi : i < 4) :
    cfgM.u1Node linVec i = Polynomial.C ((((i / 2 : ℕ) : ℝ) + ((i % 2 : ℕ) : ℝ)) / 2) := by
  have hm : cfgM.fe.mP = 2 := rfl
  have hd : ∀ s, s < 2 → linVec ((cfgM.full.collapse 0 i).getD s 0) = (((i / 2 : ℕ) : ℝ) + ((i % 2 : ℕ) : ℝ)) / 2 := by
    intro s hs
    have : (cfgM.full.collapse 0 i).getD s 0 = s * 4 + i := by
      have := stdSpace_dof (n := fullSizes 1 1 2) (m := fe.m) (c := 0) (i := i) (s := s) hs
      simpa [FSpace.dof, off, fullSizes, cfgM, cfg] using this
    rw [this, linVec, Nat.mul_add_mod_self_right, Nat.mod_eq_of_lt hi]
  rw [Cfg.u1Node, nodeAt, nodeFun, hm, sum_range_succ, sum_range_succ, sum_range_zero, hd 0 (by decide), hd 1 (by decide)]
  simp only [cfgM, cfg, fe, if_true, if_neg one_ne_zero, zero_add, ← smul_add, sub_add_cancel]
  rw [smul_eq_C_mul, mul_one]

theorem linVec_interpolates : Interpolates cfgM linVec := by
  intro n hn j hj
  have hn : n < 2 := hn
  have hj : j ≤ 1 := hj
  have hq : cfgM.D.q = 1 := rfl
  rw [Cfg.node, hq, linVec_node (by omega)]
  interval_cases n <;> interval_cases j <;> norm_num [cfgM, cfg, disc]

theorem cfgM_poly : PolyInTime cfgM := fun n _ => ⟨fun i => if i = 1 then 1 else 0, fun t _ => by
  have hq : cfgM.D.q = 1 := rfl
  rw [hq]
  constructor
  · simp [cfgM, cfg, disc, smul_eq_C_mul]
  · simp [cfgM]⟩

/-- The object after `setup_spacetime_finite_elements`. -/
theorem setUp_dofmaps (heap : Ref → Vec) : (runOps cfgM [.setupFE] (freshWorld heap)).obj.dofmaps = some (mkDofmaps cfgM) := by
  have := (setupFE_fresh (C := cfgM) (freshWorld_fresh heap) (freshWorld_noFail heap)).2
  change (setupFE cfgM (freshWorld heap)).2.obj.dofmaps = _
  rw [this]; rfl

theorem setUp_noFail (heap : Ref → Vec) : (runOps cfgM [.setupFE] (freshWorld heap)).NoFail := fun _ _ => rfl

/-- A report is returned for every vector, and for the interpolant of `t` it is zero. -/
example (heap : Ref → Vec) : ∃ r w', measuredErrors cfgM (.user 0) (runOps cfgM [.setupFE] (freshWorld heap)) = (.ok r, w') ∧
    Report cfgM ((runOps cfgM [.setupFE] (freshWorld heap)).heap (.user 0)) r ∧ r.l2T ≤ r.linfU := by
  obtain ⟨r, w', h1, h2⟩ := (C41_maxima_defined cfgM_meas polySpace_psd.mass (setUp_dofmaps heap) (.user 0)).2 (setUp_noFail heap)
  exact ⟨r, w', h1, h2, C42_final_le_max cfgM_meas h2⟩

example (heap : Ref → Vec) (h : heap (.user 0) = linVec) :
    ∃ r w', measuredErrors cfgM (.user 0) (runOps cfgM [.setupFE] (freshWorld heap)) = (.ok r, w') ∧ r.linfU = 0 ∧ r.l2l2Ut = 0 := by
  obtain ⟨r, w', h1, h2⟩ := (C41_maxima_defined cfgM_meas polySpace_psd.mass (setUp_dofmaps heap) (.user 0)).2 (setUp_noFail heap)
  have hh : (runOps cfgM [.setupFE] (freshWorld heap)).heap (.user 0) = linVec := by
    rw [← h]; rfl
  rw [hh] at h2
  have := C42_exact cfgM_meas cfgM_poly linVec_interpolates h2
  exact ⟨r, w', h1, this.2.1, this.2.2.2⟩

/-- The report of the zero vector is not zero: the final error is `‖1‖ = 1`. -/
example (r : ErrDict) (h : Report cfgM 0 r) : r.l2T = 1 ∧ 1 ≤ r.linfU := by
  have h0 : cfgM.node 0 (cfgM.D.N - 1) cfgM.D.q = 0 := by simp [Cfg.node, Cfg.u1Node, nodeAt, nodeFun]
  have h1 : r.l2T = 1 := by
    rw [h.l2T, h0]
    simp [Space.norm, cfgM, cfg, disc, polySpace, I]
  exact ⟨h1, h1 ▸ C42_final_le_max cfgM_meas h⟩

example (v : Vec) (n : ℕ) := C40_top (C := cfgM) (disc_ok false false) v n
example (v : Vec) (ℓ : ℝ[X] →ₗ[ℝ] ℝ) := C40_continuous (C := cfgM) (disc_ok false false) (by norm_num [cfgM, cfg, disc]) v ℓ 2
/-- The boundary between the slabs is a sample time: it is sample number 52. -/
example : cfgM.samples.getD 52 0 = 1 / 2 ∧ InSlab cfgM 0 (1 / 2) ∧ InSlab cfgM 1 (1 / 2) := by
  refine ⟨by rw [(C41_samples cfgM_meas).2.2.2.2 52 (by norm_num)]; norm_num [cfgM, cfg], ?_, ?_⟩ <;>
  norm_num [InSlab, cfgM, cfg, disc]

end Example
end Dxss
