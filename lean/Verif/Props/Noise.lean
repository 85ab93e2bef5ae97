import Verif.Props.Wave1Order
import Verif.Props.Stability

/-!
# Property C117: noise in the data moves the reported error by at most its own size, up to the square root of the number of slabs
-/

namespace Dxss
open Finset Real

section
variable {V : Type} [AddCommGroup V] [Module ℝ V]

/-- The rule with four points bounds the integral over a slab by the length of the slab times a bound of the integrand there. -/
theorem ruleOnSlab_le_const {r : QuadRule} (hr : mkQuadRule "Gauss-Radau" 4 = .ok r) {dt : ℝ} (hdt : 0 < dt) {n : ℕ} {Q : (ℝ → ℝ) → ℝ}
    (hQ : RuleOnSlab r dt n Q) {f : ℝ → ℝ} {c : ℝ} (h : ∀ t, n * dt ≤ t → t ≤ (n + 1 : ℕ) * dt → f t ≤ c) : Q f ≤ dt * c := by
  obtain ⟨pts, ws, h1, h2, h3⟩ := hQ
  have hab : (n:ℝ) * dt < (n + 1 : ℕ) * dt := by push_cast; nlinarith
  obtain ⟨r', pts', ws', e, e1, e2, ok⟩ := C07_accepts "Gauss-Radau" 4 (.inl ⟨rfl, .inr (.inl rfl)⟩) hab
  obtain rfl := Except.ok.inj (hr.symm.trans e)
  obtain rfl := Option.some.inj (Except.ok.inj (h1.symm.trans e1))
  obtain rfl := Option.some.inj (Except.ok.inj (h2.symm.trans e2))
  rw [h3]
  have hlen : ((n + 1 : ℕ) : ℝ) * dt - n * dt = dt := by push_cast; ring
  have hs := ok.sum_eq
  rw [hlen] at hs
  rw [← hs]
  have : ∀ (ps us : List ℝ), ps.length = us.length → (∀ p ∈ ps, f p ≤ c) → (∀ u ∈ us, 0 < u) → quadSum ps us f ≤ us.sum * c := by
    intro ps
    induction ps with
    | nil =>
      intro us hl _ _
      obtain rfl := List.length_eq_zero_iff.1 hl.symm
      simp [quadSum]
    | cons p ps ih =>
      intro us hl hp hu
      cases us with
      | nil => simp at hl
      | cons u us =>
        have i := ih us (by simpa using hl) (fun p' h' => hp p' (List.mem_cons_of_mem _ h')) (fun u' h' => hu u' (List.mem_cons_of_mem _ h'))
        have j := mul_le_mul_of_nonneg_left (hp p List.mem_cons_self) (hu u List.mem_cons_self).le
        simp only [quadSum, List.zipWith_cons_cons, List.sum_cons] at i ⊢
        rw [add_mul]
        linarith
  exact this pts ws ok.length_eq (fun p hp => h p (ok.inside p hp).1 (ok.inside p hp).2) ok.pos

/-- C117: two objects built with the same arguments except for the measured solution, the two differing by at most `δ` on the data domain at every
time between 0 and the final time, and data which (with boundary values and jumps of the gradient) determine the finite element functions with
constant `c`.  The largest errors one of the objects reports for a solution of its own system and for a solution of the other one's system differ
by at most `√(192·c·data·N)·δ`. -/
theorem C117_noise {interp : V →ₗ[ℝ] V} {a : Args V} {sol₂ : ℝ → V} {om om' om₂' : DataDomain V} {B B₂ : Built V}
    (hb : construct interp a om = (.ok B, om')) (hb₂ : construct interp { a with sol := sol₂ } om = (.ok B₂, om₂'))
    (haN : 0 < a.N) (haT : 0 < a.T)
    {C C₂ : Cfg V} (hC : C.Ok) (hB : C.OfBuilt B) (hC₂ : C₂.Ok) (hB₂ : C₂.OfBuilt B₂) (hSS : C₂.S = C.S)
    (hfe : C₂.fe = C.fe) (hL : C₂.full = C.full) (hS : C.S.Psd C.D.ind) (hd : C.S.Definite) (hp : C.D.Positive) (hwp : C.D.wellPosed = false)
    {c δ : ℝ} (hc0 : 0 ≤ c) (hc : C.Determined c) (hδ0 : 0 ≤ δ)
    (hK : c * ((C.D.q + 1) ^ 2 / C.D.dt) * ((1e-20) ^ 2 * (C.D.qstar + 1) ^ 2) ≤ 1e-2 * (C.D.gDual * C.D.dt))
    (hδ : ∀ t, 0 ≤ t → t ≤ a.T → C.S.omega C.D.ind (a.sol t - sol₂ t) (a.sol t - sol₂ t) ≤ δ ^ 2)
    {w₀ v₀ : World V} (h₀ : w₀.Fresh) (g₀ : v₀.Fresh) {r r₂ : Ref} {w₁ v₁ : World V}
    (h : scriptSetup C w₀ = (.ok r, w₁)) (h₂ : scriptSetup C₂ v₀ = (.ok r₂, v₁)) {A A₂ : Mat}
    (hA : C.Returns false A) (hA₂ : C₂.Returns false A₂)
    {z₀ y₀ : World V} (hz : z₀.Fresh) (hy : y₀.Fresh) (ops ops₂ : List (Op V)) (x y : InVec)
    (hx : ∀ d < A.size, A.mult ((runOps C ops z₀).heap x.ref) d = w₁.heap r d)
    (hy' : ∀ d < A₂.size, A₂.mult ((runOps C ops₂ y₀).heap y.ref) d = v₁.heap r₂ d)
    {rep rep₂ : ErrDict} {z₁ y₁ : World V} (hrep : measuredErrors C x.ref (runOps C ops z₀) = (.ok rep, z₁))
    (hrep₂ : measuredErrors C y.ref (runOps C ops₂ y₀) = (.ok rep₂, y₁)) :
    |rep.linfU - rep₂.linfU| ≤ √(192 * c * C.D.gData * C.D.N) * δ := by
  have hdt := hp.dt
  obtain ⟨b, -, eB⟩ := construct_facts hb
  obtain ⟨b₂, -, eB₂⟩ := construct_facts hb₂
  have hNpos : 0 < C.D.N := by
    rw [hB.D, eB]
    change 0 < a.N.toNat
    omega
  have hT : (C.D.N : ℝ) * C.D.dt = a.T := by
    rw [hB.D, eB]
    have e : ((a.N.toNat : ℕ) : ℝ) = a.N := by exact_mod_cast Int.toNat_of_nonneg haN.le
    have : (a.N : ℝ) ≠ 0 := by exact_mod_cast haN.ne'
    simp only [builtOf]
    rw [e]
    field_simp
  have hwp₂ : C₂.D.wellPosed = false := by
    rw [hB₂.D, eB₂]
    rw [hB.D, eB] at hwp
    exact hwp
  have hMe : C.Meas := Meas.of_construct hb haN haT ⟨hB.D, hB.T, hB.dsol, hB.samples, hB.ptsHo, hB.wsHo⟩
  have ho := C68_full_data_observe hC hS hd hp hc0 hc hNpos
  obtain ⟨w₂, hw₂⟩ := Example.getRhs_after C (fun _ => 0) 0 0 []
  obtain ⟨v₂, hv₂⟩ := Example.getRhs_after C₂ (fun _ => 0) 0 0 []
  have e1 : w₂.heap .rhs = w₁.heap r := by
    rw [C33_not_well_posed_partial (u := 0) (v := 0) hwp (Example.freshWorld_fresh _) _ hw₂,
      C33_not_well_posed_partial (u := 0) (v := 0) hwp h₀ _ (scriptSetup_getRhs h)]
  have e2 : v₂.heap .rhs = v₁.heap r₂ := by
    rw [C33_not_well_posed_partial (u := 0) (v := 0) hwp₂ (Example.freshWorld_fresh _) _ hv₂,
      C33_not_well_posed_partial (u := 0) (v := 0) hwp₂ g₀ _ (scriptSetup_getRhs h₂)]
  choose Q hQ using fun k => exists_ruleOnSlab (construct_qr hb).1 C.D.dt k
  have sA : A.size = C.full.size := by rw [hA.eq]; rfl
  have sA₂ : A₂.size = C.full.size := by rw [hA₂.eq, ← hL]; rfl
  obtain ⟨a₀, opsA, a₁, ha₀, hopsA, hA'⟩ := id hA
  obtain ⟨b₀, opsB, b₁, hb₀, hopsB, hA₂'⟩ := id hA₂
  have key := C70_stability hb hb₂ hC hB hC₂ hB₂ hSS hfe hL hS hp hNpos ho hK (Example.freshWorld_fresh _) (Example.freshWorld_noFail _)
    (Example.freshWorld_fresh _) (Example.freshWorld_noFail _) 0 0 0 0 [] [] (by simp) (by simp) hw₂ hv₂ ha₀ hb₀ opsA opsB hopsA hopsB hA' hA₂'
    (fun k _ => hQ k) _ _ (fun d hd => by rw [e1]; exact hx d (sA ▸ hd)) (fun d hd => by rw [e2]; exact hy' d (sA₂ ▸ hd))
  have size : Spec.dataSize C.S C.D C.D.ind Q (fun t => a.sol t - sol₂ t) (0 - 0) (0 - 0) ≤ C.D.gData * (C.D.N * (C.D.dt * δ ^ 2)) := by
    rw [Spec.dataSize, if_neg (by rw [hwp]; simp), add_zero, ← mul_sum]
    refine mul_le_mul_of_nonneg_left ?_ hp.data
    refine (sum_le_card_nsmul _ _ (C.D.dt * δ ^ 2) fun k hk => ruleOnSlab_le_const (construct_qr hb).1 hdt (hQ k) fun t t0 t1 => hδ t ?_ ?_).trans ?_
    · exact le_trans (by positivity) t0
    · refine t1.trans (hT ▸ mul_le_mul_of_nonneg_right ?_ hdt.le)
      exact_mod_cast mem_range.1 hk
    · rw [card_range, nsmul_eq_mul]
  have hR := C42_any_history hMe hS.mass hz ops x hrep
  have hR₂ := C42_any_history hMe hS.mass hy ops₂ y hrep₂
  have sup := report_sup hC hS hp hc0 hc (key.trans (mul_le_mul_of_nonneg_left size (by norm_num))) hR hR₂
  refine sup.trans (le_of_eq ?_)
  have e3 : 96 * c / C.D.dt * (2 * (C.D.gData * (C.D.N * (C.D.dt * δ ^ 2)))) = 192 * c * C.D.gData * C.D.N * δ ^ 2 := by
    field_simp; ring
  rw [e3, sqrt_mul' _ (sq_nonneg δ), sqrt_sq hδ0]

end

section
variable {n : ℕ} {hn : 0 < n} {N : ℤ} {interp : (Mesh1.unit n hn).Broken →ₗ[ℝ] (Mesh1.unit n hn).Broken}
  {om' om₂' : DataDomain (Mesh1.unit n hn).Broken} {B B₂ : Built (Mesh1.unit n hn).Broken}
  {C C₂ : Cfg (Mesh1.unit n hn).Broken} {k : ℕ} {sol₂ : ℝ → (Mesh1.unit n hn).Broken}

/-- C117: solve_1d.py as in C115, but with measurements `sol₂` which differ from the wave by at most `δ` (in the norm of L², at every time).  If a
vector solves the linear system for these data, the error against the wave is at most the bound of C115 plus `14·√N·δ`. -/
theorem C117_solve_1d (hb : construct interp (orderArgs k N (Mesh1.unit n hn).sol1 (Mesh1.unit n hn).dsol1)
      ⟨(Mesh1.unit n hn).space.one, false⟩ = (.ok B, om'))
    (hb₂ : construct interp (orderArgs k N sol₂ (Mesh1.unit n hn).dsol1) ⟨(Mesh1.unit n hn).space.one, false⟩ = (.ok B₂, om₂'))
    (hN : 100 ≤ N) (hsize : (N : ℝ) ≤ 1e13) (hn1 : 100 ≤ n) (hk : 1 ≤ k)
    (hC : C.Ok) (hB : C.OfBuilt B) (hC₂ : C₂.Ok) (hB₂ : C₂.OfBuilt B₂) (hSS : C₂.S = C.S) (hff : C₂.fe = C.fe) (hL : C₂.full = C.full)
    (hS : C.S = (Mesh1.unit n hn).space) (hfe : C.fe.primal = (Mesh1.unit n hn).lagrange k)
    {j : ℕ} (hfd : C.fe.dual ≤ (Mesh1.unit n hn).lagrange j) (hi : C.fe.Indep) {δ : ℝ} (hδ0 : 0 ≤ δ)
    (hδ : ∀ t, 0 ≤ t → t ≤ 1 → (Mesh1.unit n hn).space.norm ((Mesh1.unit n hn).sol1 t - sol₂ t) ≤ δ)
    {v₀ : World (Mesh1.unit n hn).Broken} (g₀ : v₀.Fresh) {r : Ref} {v₁ : World (Mesh1.unit n hn).Broken}
    (h : scriptSetup C₂ v₀ = (.ok r, v₁)) {A : Mat} (hA : C₂.Returns false A)
    {z₀ : World (Mesh1.unit n hn).Broken} (hz : z₀.Fresh) (ops : List (Op (Mesh1.unit n hn).Broken)) (x : InVec)
    (hx : ∀ d < A.size, A.mult ((runOps C ops z₀).heap x.ref) d = v₁.heap r d)
    {rep : ErrDict} {z₁ : World (Mesh1.unit n hn).Broken} (hrep : measuredErrors C x.ref (runOps C ops z₀) = (.ok rep, z₁)) :
    let bound := √(460 / N + 28 * (N / n ^ 2) + 2.5e-7 * N) + 5 / N ^ 2 + 7 / n ^ 2 + 14 * √N * δ
    rep.l2T ≤ bound ∧ rep.linfU ≤ bound := by
  intro bound
  have hN0 : 0 < N := by omega
  have hNR : (100:ℝ) ≤ N := by exact_mod_cast hN
  have hNR0 : (0:ℝ) < N := by linarith
  have hD := order_data hb hN0 hk hB
  obtain ⟨b, -, eB⟩ := construct_facts hb
  have hdata : C.D.gData = 1e4 := by rw [hB.D, eB]; rfl
  have hind : C.D.ind = (Mesh1.unit n hn).space.one := by rw [hB.D, eB]; simp [builtOf]
  have hPsd : C.S.Psd C.D.ind := by rw [hS, hind]; exact unit_psd hn
  have hdef : C.S.Definite := hS ▸ (Mesh1.unit n hn).space_definite
  have hlam : 0 < C.D.lam := by linarith [hD.lam]
  have hDN : (C.D.N : ℝ) = N := by
    rw [hD.N]
    exact_mod_cast Int.toNat_of_nonneg (by omega : 0 ≤ N)
  have hom : ∀ u, C.S.omega C.D.ind u u = C.S.mass u u := fun u => by rw [hS, hind, omega_one1]
  have hdet : C.Determined (1 / C.D.gData) := by
    intro u _
    have p := hPsd.pen u; have g := hPsd.ghost u
    have hp := hD.pos.primal
    have : 0 ≤ C.D.gPrimal * (C.D.lam * C.S.pen u u + C.S.ghost u u) := by positivity
    rw [hom, one_div, ← div_eq_inv_mul, le_div_iff₀ (by rw [hdata]; norm_num)]
    linarith
  have hMe : C.Meas := Meas.of_construct hb hN0 (by norm_num [orderArgs, Script.args, Script.T])
    ⟨hB.D, hB.T, hB.dsol, hB.samples, hB.ptsHo, hB.wsHo⟩
  obtain ⟨w₁, hs, -⟩ := scriptSetup_run (C := C) (Example.freshWorld_fresh fun _ => 0) (Example.freshWorld_noFail _)
  obtain ⟨a₀, opsA, a₁, ha₀, hopsA, hA'⟩ := Example.returns C false
  obtain ⟨y, hy, -⟩ := (C115_unique hb hN0 hsize hk hC hB hS hi ha₀ opsA hopsA hA').2 (w₁.heap .rhs)
  have hyw : (runOps C [.setupFE, .write 1 y] (Example.freshWorld fun _ => 0)).heap (InVec.user 1).ref = y :=
    runOps_write C [.setupFE] 1 y (Example.freshWorld fun _ => 0)
  obtain ⟨rep', y₁, hrep'⟩ := C42_returns hMe hPsd.mass (Example.freshWorld_fresh fun _ => 0) (Example.freshWorld_noFail _) [.write 1 y] (.user 1)
  have c1 := (C115_error hb hN hsize hn1 hk hC hB hS hfe hfd (Example.freshWorld_fresh _) hs ⟨a₀, opsA, a₁, ha₀, hopsA, hA'⟩
    (Example.freshWorld_fresh _) _ (.user 1) (by rw [hyw]; exact hy) hrep').2
  have hq4 : ((C.D.q : ℝ) + 1) ^ 2 ≤ 16 := by
    have : (C.D.q : ℝ) ≤ 3 := by exact_mod_cast hC.disc.hq
    nlinarith [(Nat.cast_nonneg C.D.q : (0:ℝ) ≤ C.D.q)]
  have hq1 : ((C.D.qstar : ℝ) + 1) ^ 2 ≤ 4 := by
    have : (C.D.qstar : ℝ) ≤ 1 := by exact_mod_cast hD.qstar
    nlinarith [(Nat.cast_nonneg C.D.qstar : (0:ℝ) ≤ C.D.qstar)]
  have c2 := C117_noise (sol₂ := sol₂) hb hb₂ hN0 (by norm_num [orderArgs, Script.args, Script.T]) hC hB hC₂ hB₂ hSS hff hL hPsd hdef hD.pos hD.wp
    (by rw [hdata]; norm_num) hdet hδ0 (by
      rw [hdata, hD.dt, hD.dual, one_mul]
      rw [mul_one_div, le_div_iff₀ hNR0]
      calc 1 / 1e4 * (((C.D.q : ℝ) + 1) ^ 2 / (1 / N)) * ((1e-20) ^ 2 * ((C.D.qstar : ℝ) + 1) ^ 2) * N
          ≤ 1 / 1e4 * (16 / (1 / N)) * ((1e-20) ^ 2 * 4) * N := by gcongr
        _ = 6.4e-43 * (N:ℝ) ^ 2 := by field_simp; norm_num
        _ ≤ 1e-2 := by
          have := pow_le_pow_left₀ hNR0.le hsize 2
          norm_num at this ⊢
          linarith)
    (fun t t0 t1 => by
      rw [hom, hS]
      have := hδ t t0 (by simpa [orderArgs, Script.args, Script.T] using t1)
      exact (sqrt_le_left hδ0).1 this)
    (Example.freshWorld_fresh _) g₀ hs h ⟨a₀, opsA, a₁, ha₀, hopsA, hA'⟩ hA (Example.freshWorld_fresh _) hz _ ops (.user 1) x
    (by rw [hyw]; exact hy) hx hrep' hrep
  have c3 : √(192 * (1 / C.D.gData) * C.D.gData * C.D.N) * δ ≤ 14 * √N * δ := by
    refine mul_le_mul_of_nonneg_right ?_ hδ0
    have e : 192 * (1 / C.D.gData) * C.D.gData * C.D.N = 192 * (N:ℝ) := by rw [hdata, hDN]; norm_num
    rw [e, sqrt_le_left (by positivity), mul_pow, sq_sqrt hNR0.le]
    nlinarith
  have key : rep.linfU ≤ bound := by
    have := (abs_le.1 c2).1
    change rep.linfU ≤ √(460 / N + 28 * (N / n ^ 2) + 2.5e-7 * N) + 5 / N ^ 2 + 7 / n ^ 2 + 14 * √N * δ
    linarith
  exact ⟨(C42_final_le_max hMe (C42_any_history hMe hPsd.mass hz ops x hrep)).trans key, key⟩

end
namespace Example
open Mesh1

/-- C117 for each order, 5000 slabs, at least as many cells, and any measurement error of at most `1e-6`: both objects can be built, the system of
the noisy one has a solution, `measured_errors` of the other one returns for it, and the error is at most half of the norm of the wave. -/
example {n : ℕ} {hn : 0 < n} {k : ℕ} (h1 : 1 ≤ k) (h3 : k ≤ 3) (hn5 : 5000 ≤ n) (noise : ℝ → (Mesh1.unit n hn).Broken)
    (hnoise : ∀ t, 0 ≤ t → t ≤ 1 → (Mesh1.unit n hn).space.norm (noise t) ≤ 1e-6) : ∃ B om' B₂ om₂',
    construct LinearMap.id (orderArgs k 5000 (Mesh1.unit n hn).sol1 (Mesh1.unit n hn).dsol1) ⟨(Mesh1.unit n hn).space.one, false⟩ = (.ok B, om') ∧
    construct LinearMap.id (orderArgs k 5000 (fun t => (Mesh1.unit n hn).sol1 t - noise t) (Mesh1.unit n hn).dsol1)
      ⟨(Mesh1.unit n hn).space.one, false⟩ = (.ok B₂, om₂') ∧
    ∃ v₁ A x ops rep z₁, scriptSetup (cfgKN k 5000 B₂) (freshWorld fun _ => 0) = (.ok .rhs, v₁) ∧ (cfgKN k 5000 B₂).Returns false A ∧
      (∀ d < A.size, A.mult x d = v₁.heap .rhs d) ∧ (runOps (cfgKN k 5000 B) ops (freshWorld fun _ => 0)).heap (.user 1) = x ∧
      measuredErrors (cfgKN k 5000 B) (.user 1) (runOps (cfgKN k 5000 B) ops (freshWorld fun _ => 0)) = (.ok rep, z₁) ∧
      rep.l2T ≤ 1 / 2 * (cfgKN k 5000 B).S.norm ((cfgKN k 5000 B).D.sol (cfgKN k 5000 B).T) := by
  obtain ⟨B, om', hb, hC, hB⟩ := builtKN (n := n) (hn := hn) h3 (N := 5000) (by norm_num) (Mesh1.unit n hn).space.one
  obtain ⟨B₂, om₂', hb₂, hC₂, hB₂⟩ := builtKN_of (fun t => (Mesh1.unit n hn).sol1 t - noise t) h3 (N := 5000) (by norm_num)
    (Mesh1.unit n hn).space.one
  refine ⟨B, om', B₂, om₂', hb, hb₂, ?_⟩
  obtain ⟨v₁, h, -⟩ := scriptSetup_run (C := cfgKN k 5000 B₂) (freshWorld_fresh fun _ => 0) (freshWorld_noFail _)
  have hAA : stMatOf (cfgKN k 5000 B₂) false = stMatOf (cfgKN k 5000 B) false := by
    obtain ⟨b, i1, e⟩ := construct_facts hb
    obtain ⟨b₂, i2, e₂⟩ := construct_facts hb₂
    obtain rfl : b = b₂ := Option.some.inj (i1.symm.trans i2)
    simp only [cfgKN, cfgN, stMatOf, e, e₂, builtOf]
    rfl
  obtain ⟨v₀, ops, w₁, g₀, hops, hA'⟩ := returns (cfgKN k 5000 B) false
  obtain ⟨x, hx, -⟩ := (C115_unique (C := cfgKN k 5000 B) hb (by norm_num) (by norm_num) h1 hC hB rfl ((Mesh1.unit n hn).pk_indep k) g₀ ops hops
    hA').2 (v₁.heap .rhs)
  rw [← hAA] at hx
  have hz : (runOps (cfgKN k 5000 B) [.setupFE, .write 1 x] (freshWorld fun _ => 0)).heap (.user 1) = x :=
    runOps_write (cfgKN k 5000 B) [.setupFE] 1 x (freshWorld fun _ => 0)
  have hMe : (cfgKN k 5000 B).Meas := Meas.of_construct hb (by norm_num [orderArgs]) (by norm_num [orderArgs, Script.args, Script.T])
    ⟨hB.D, hB.T, hB.dsol, hB.samples, hB.ptsHo, hB.wsHo⟩
  obtain ⟨rep, z₁, hr⟩ := C42_returns hMe (unit_psd hn).mass (freshWorld_fresh fun _ => 0) (freshWorld_noFail fun _ => 0) [.write 1 x] (.user 1)
  have hd : ((Mesh1.unit n hn).pk k).dual ≤ (Mesh1.unit n hn).lagrange 1 := Submodule.span_le.2 (by
    rintro _ ⟨s, -, rfl⟩
    exact (Mesh1.unit n hn).hat_mem s)
  refine ⟨v₁, _, x, _, rep, z₁, h, returns _ false, hx, hz, hr, ?_⟩
  have n1 := (C117_solve_1d (C := cfgKN k 5000 B) (C₂ := cfgKN k 5000 B₂) hb hb₂ (by norm_num) (by norm_num) (by omega) h1 hC hB hC₂ hB₂ rfl rfl rfl
    rfl ((Mesh1.unit n hn).pk_primal k) hd ((Mesh1.unit n hn).pk_indep k) (δ := 1e-6) (by norm_num)
    (fun t t0 t1 => by rw [sub_sub_cancel]; exact hnoise t t0 t1) (freshWorld_fresh _) h (returns _ false) (freshWorld_fresh _)
    [.setupFE, .write 1 x] (.user 1) (by rw [← hz] at hx; exact hx) hr).1
  refine n1.trans ?_
  obtain ⟨b, -, e⟩ := construct_facts hb
  have e1 : (cfgKN k 5000 B).D.sol = (Mesh1.unit n hn).sol1 := by rw [hB.D, e]; rfl
  have e2 : (cfgKN k 5000 B).T = 1 := by rw [hB.T, e]; simp [builtOf, orderArgs, Script.args, Script.T]
  have e3 : (cfgKN k 5000 B).S.norm ((cfgKN k 5000 B).D.sol (cfgKN k 5000 B).T) = √(1 / 2) := by
    rw [e1, e2]
    change (Mesh1.unit n hn).space.norm _ = _
    rw [← norm_zero_sub, unit_norm_sol]
    simp
  rw [e3]
  have hn' : (5000:ℝ) ≤ n := by exact_mod_cast hn5
  have hn0 : (0:ℝ) < n := by linarith
  have i2 : 1 / (n:ℝ) ^ 2 ≤ 1 / 5000 ^ 2 := one_div_le_one_div_of_le (by norm_num) (pow_le_pow_left₀ (by norm_num) hn' 2)
  have a1 : √(460 / ((5000:ℤ):ℝ) + 28 * (((5000:ℤ):ℝ) / n ^ 2) + 2.5e-7 * ((5000:ℤ):ℝ)) ≤ 0.32 := by
    rw [sqrt_le_left (by norm_num), div_eq_mul_one_div _ ((n:ℝ) ^ 2)]
    generalize 1 / (n:ℝ) ^ 2 = Y at i2
    norm_num at i2 ⊢
    linarith
  have a2 : 7 / (n:ℝ) ^ 2 ≤ 1e-5 := by
    rw [div_eq_mul_one_div]
    generalize 1 / (n:ℝ) ^ 2 = Y at i2
    norm_num at i2 ⊢
    linarith
  have a3 : √((5000:ℤ):ℝ) ≤ 71 := by
    rw [sqrt_le_left (by norm_num)]; norm_num
  have a4 : (0.7:ℝ) ≤ √(1 / 2) := le_sqrt_of_sq_le (by norm_num)
  generalize √(460 / ((5000:ℤ):ℝ) + 28 * (((5000:ℤ):ℝ) / n ^ 2) + 2.5e-7 * ((5000:ℤ):ℝ)) = X at a1 ⊢
  generalize 7 / (n:ℝ) ^ 2 = Y at a2 ⊢
  generalize √((5000:ℤ):ℝ) = Z at a3 ⊢
  generalize √(1 / 2 : ℝ) = U at a4 ⊢
  norm_num at a1 a2 a3 a4 ⊢
  linarith

end Example
end Dxss
