import Verif.Lemmas.Plot
import Verif.Props.Errors

/-!
# Property C43: the sampling tables behind the plots
-/

namespace Dxss
open Finset
set_option linter.unusedSectionVars false
variable {V : Type} [AddCommGroup V] [Module ℝ V] {C : Cfg V}

/-- The discrete displacement on slab `n` at local time `τ`, and its time derivative. -/
noncomputable def Cfg.discrete (C : Cfg V) (v : Vec) (n : ℕ) (τ : ℝ) : V :=
  ∑ j ∈ range (C.D.q + 1), phi C.D.q j τ • C.node v n j
noncomputable def Cfg.discreteDot (C : Cfg V) (v : Vec) (n : ℕ) (τ : ℝ) : V :=
  (1 / C.D.dt) • ∑ j ∈ range (C.D.q + 1), dphi C.D.q j τ • C.node v n j

/-- What is to stand in row `r`, column `j`. -/
noncomputable def entry (C : Cfg V) (nSub : ℕ) (ev : ℕ → V →ₗ[ℝ] ℝ) (g : ℝ → ℕ → ℝ → ℝ → List ℝ) (v : Vec) (r j : ℕ) :
    List ℝ :=
  let n := r / nSub
  let τ : ℝ := ((r % nSub : ℕ) : ℝ) / nSub
  g ((n + τ) * C.D.dt) j (ev j (C.discrete v n τ)) (ev j (C.discreteDot v n τ))

theorem pySum_eq (q : ℕ) (c a : ℕ → ℝ) : pySum q c a = ∑ j ∈ range (q + 1), c j * a j := by
  have := ufSum_eq (V := ℝ) q c a
  simpa [ufSum, pySum] using this

theorem plotTime_eq (nSub n m : ℕ) : plotTime C nSub n m = (n + (m : ℝ) / nSub) * C.D.dt := by
  unfold plotTime; ring

theorem plotVal_eq (hdt : C.D.dt ≠ 0) {nSub : ℕ} (ev : ℕ → V →ₗ[ℝ] ℝ) (g : ℝ → ℕ → ℝ → ℝ → List ℝ) (v : Vec) (n j : ℕ)
    {m : ℕ} (hm : m < nSub) : plotVal C nSub g (fun ell j => ev j (C.u1Node v (n * (C.D.q + 1) + ell))) n j m
      = entry C nSub ev g v (n * nSub + m) j := by
  have h1 : (n * nSub + m) / nSub = n := by
    rw [mul_comm, Nat.mul_add_div (by omega), Nat.div_eq_of_lt hm, add_zero]
  have h2 : (n * nSub + m) % nSub = m := by rw [Nat.mul_add_mod_self_right, Nat.mod_eq_of_lt hm]
  have h3 : ((n + (m : ℝ) / nSub) * C.D.dt - n * C.D.dt) / C.D.dt = (m : ℝ) / nSub := by field_simp; ring
  simp only [plotVal, entry, h1, h2, plotTime_eq, h3, pySum_eq, Cfg.discrete, Cfg.discreteDot, map_sum, map_smul,
    smul_eq_mul, Cfg.node, Finset.mul_sum, mul_assoc]

/-- Rows and columns of the assignments. -/
def keys (cells : List (ℕ × ℕ × List ℝ)) : List (ℕ × ℕ) := cells.map fun c => (c.1, c.2.1)

theorem keys_plotCells (nSpace nSub : ℕ) (ev : ℕ → V → ℝ) (g : ℝ → ℕ → ℝ → ℝ → List ℝ) (v : Vec) (k : ℕ) :
    keys (plotCells C nSpace nSub ev g v k) = (List.range k).flatMap fun n => (List.range nSpace).flatMap fun j =>
      (List.range nSub).map fun m => (n * nSub + m, j) := by
  simp [keys, plotCells, List.map_flatMap, Function.comp_def]

theorem keys_nodup (k nSpace nSub : ℕ) : ((List.range k).flatMap fun n => (List.range nSpace).flatMap fun j =>
      (List.range nSub).map fun m => (n * nSub + m, j)).Nodup := by
  rw [List.nodup_flatMap]
  refine ⟨fun n _ => ?_, ?_⟩
  · rw [List.nodup_flatMap]
    refine ⟨fun j _ => ?_, ?_⟩
    · refine List.Nodup.map (fun a b h => ?_) List.nodup_range
      simpa using h
    · refine List.Pairwise.imp ?_ List.nodup_range
      intro a b hab x hx hy
      simp only [List.mem_map] at hx hy
      obtain ⟨m, -, rfl⟩ := hx
      obtain ⟨m', -, h⟩ := hy
      exact hab (Prod.ext_iff.1 h).2.symm
  · refine List.Pairwise.imp ?_ List.nodup_range
    intro a b hab x hx hy
    simp only [List.mem_flatMap, List.mem_map, List.mem_range] at hx hy
    obtain ⟨j, -, m, hm, rfl⟩ := hx
    obtain ⟨j', -, m', hm', h⟩ := hy
    have h := (Prod.ext_iff.1 h).1
    simp only at h
    have e1 : (a * nSub + m) / nSub = a := by rw [mul_comm, Nat.mul_add_div (by omega), Nat.div_eq_of_lt hm, add_zero]
    have e2 : (b * nSub + m') / nSub = b := by rw [mul_comm, Nat.mul_add_div (by omega), Nat.div_eq_of_lt hm', add_zero]
    exact hab (by rw [← e1, ← e2, h])

theorem mem_keys {k nSpace nSub r j : ℕ} : (r, j) ∈ ((List.range k).flatMap fun n => (List.range nSpace).flatMap fun j =>
      (List.range nSub).map fun m => (n * nSub + m, j)) ↔ r < nSub * k ∧ j < nSpace := by
  simp only [List.mem_flatMap, List.mem_map, List.mem_range, Prod.mk.injEq]
  constructor
  · rintro ⟨n, hn, j', hj, m, hm, rfl, rfl⟩
    refine ⟨?_, hj⟩
    calc n * nSub + m < n * nSub + nSub := by omega
      _ = nSub * (n + 1) := by ring
      _ ≤ _ := Nat.mul_le_mul_left _ hn
  · rintro ⟨hr, hj⟩
    have hp : 0 < nSub := Nat.pos_of_ne_zero (by rintro rfl; simp at hr)
    exact ⟨r / nSub, Nat.div_lt_of_lt_mul hr, j, hj, r % nSub, Nat.mod_lt _ hp, by rw [mul_comm]; exact Nat.div_add_mod _ _, rfl⟩

theorem plotTimes_eq (nSub k : ℕ) : plotTimes C nSub k = (List.range (nSub * k)).map fun r =>
    (((r / nSub : ℕ) : ℝ) + ((r % nSub : ℕ) : ℝ) / nSub) * C.D.dt := by
  induction k with
  | zero => simp [plotTimes]
  | succ k ih =>
    rw [plotTimes, List.range_succ, List.flatMap_append, ← plotTimes, ih, Nat.mul_succ, List.range_add, List.map_append]
    congr 1
    simp only [List.flatMap_cons, List.flatMap_nil, List.append_nil, List.map_map]
    refine List.map_congr_left fun m hm => ?_
    have hm := List.mem_range.1 hm
    simp only [Function.comp]
    rw [Nat.mul_add_div (by omega), Nat.div_eq_of_lt hm, add_zero, Nat.mul_add_mod_self_left, Nat.mod_eq_of_lt hm, plotTime_eq]

/-- C43: for every vector the sampling loops run to their end; the time axis has `n_time_subdiv·N`
entries, entry `n·n_time_subdiv + m` being `(n + m/n_time_subdiv)·dt`, in strictly increasing order;
every entry of the `n_time_subdiv·N × n_space` tables is assigned exactly once, nothing outside is,
and the value assigned belongs to the discrete solution at the row's time and the column's point. -/
theorem C43_tables (hD : C.D.Ok) (hdt : 0 < C.D.dt) {nSpace nSub : ℕ} (hs : 0 < nSpace)
    (ev : ℕ → V →ₗ[ℝ] ℝ) (g : ℝ → ℕ → ℝ → ℝ → List ℝ) (v : Vec) (s₀ : ℕ → V) :
    ∃ st, plotLoop C (mkDofmaps C) nSpace nSub (fun j => ev j) g v { slab := s₀ } = (.ok (), st) ∧
      st.ts.length = nSub * C.D.N ∧
      (∀ n m, n < C.D.N → m < nSub → st.ts.getD (n * nSub + m) 0 = (n + (m : ℝ) / nSub) * C.D.dt) ∧
      st.ts.SortedLT ∧
      (keys st.cells).Nodup ∧ (∀ r j, (r, j) ∈ keys st.cells ↔ r < nSub * C.D.N ∧ j < nSpace) ∧
      ∀ r j x, (r, j, x) ∈ st.cells → x = entry C nSub ev g v r j := by
  obtain ⟨st, h1, h2, h3⟩ := plotLoop_run (C := C) (nSub := nSub) (g := g) hs (fun j => ev j) v s₀
  refine ⟨st, h1, ?_, ?_, ?_, ?_, ?_, ?_⟩
  · rw [h2, plotTimes_eq]; simp
  · intro n m hn hm
    have hlt : n * nSub + m < nSub * C.D.N := by
      calc n * nSub + m < n * nSub + nSub := by omega
        _ = nSub * (n + 1) := by ring
        _ ≤ _ := Nat.mul_le_mul_left _ hn
    rw [h2, plotTimes_eq, List.getD_eq_getElem _ _ (by simpa using hlt)]
    simp only [List.getElem_map, List.getElem_range]
    rw [mul_comm n nSub, Nat.mul_add_div (by omega), Nat.div_eq_of_lt hm, add_zero, Nat.mul_add_mod_self_left, Nat.mod_eq_of_lt hm]
  · rw [h2, plotTimes_eq]
    rcases Nat.eq_zero_or_pos nSub with rfl | h0
    · simp [List.sortedLT_iff_pairwise]
    rw [List.sortedLT_iff_pairwise, List.pairwise_map]
    refine List.Pairwise.imp ?_ (List.pairwise_lt_range)
    intro a b hab
    refine mul_lt_mul_of_pos_right ?_ hdt
    have hc : ((nSub : ℕ) : ℝ) ≠ 0 := by exact_mod_cast h0.ne'
    have e : ∀ r : ℕ, ((r / nSub : ℕ) : ℝ) + ((r % nSub : ℕ) : ℝ) / nSub = (r : ℝ) / nSub := fun r => by
      have := Nat.div_add_mod r nSub
      field_simp
      exact_mod_cast (by linarith : r / nSub * nSub + r % nSub = r)
    rw [e, e]
    exact div_lt_div_of_pos_right (by exact_mod_cast hab) (by exact_mod_cast h0)
  · rw [h3, keys_plotCells]; exact keys_nodup _ _ _
  · intro r j; rw [h3, keys_plotCells]; exact mem_keys
  · intro r j x hx
    rw [h3] at hx
    simp only [plotCells, List.mem_flatMap, List.mem_map, List.mem_range, Prod.mk.injEq] at hx
    obtain ⟨n, hn, j', hj, m, hm, rfl, rfl, rfl⟩ := hx
    exact plotVal_eq hD.dt_ne ev g v n j' hm

/-- The time of row `r`. -/
noncomputable def Cfg.rowTime (C : Cfg V) (nSub r : ℕ) : ℝ := ((r / nSub : ℕ) + ((r % nSub : ℕ) : ℝ) / nSub) * C.D.dt

/-- C43, `plot`: the two tables hold the discrete solution and its time derivative at the row's time and the column's point,
transformed by `abs_val`'s transformation. -/
theorem C43_plot (hD : C.D.Ok) {nSpace nSub : ℕ} (hs : 0 < nSpace) (ev : ℕ → V →ₗ[ℝ] ℝ) (trafo : ℝ → ℝ) (v : Vec)
    (s₀ : ℕ → V) : ∃ st, plotLoop C (mkDofmaps C) nSpace nSub (fun j => ev j) (plotEntries trafo) v { slab := s₀ } = (.ok (), st) ∧
      ∀ r j x, (r, j, x) ∈ st.cells →
        x = [trafo (ev j (C.discrete v (r / nSub) (((r % nSub : ℕ) : ℝ) / nSub))),
             trafo (ev j (C.discreteDot v (r / nSub) (((r % nSub : ℕ) : ℝ) / nSub)))] := by
  obtain ⟨st, h1, -, h3⟩ := plotLoop_run (C := C) (nSub := nSub) (g := plotEntries trafo) hs (fun j => ev j) v s₀
  refine ⟨st, h1, fun r j x hx => ?_⟩
  rw [h3] at hx
  simp only [plotCells, List.mem_flatMap, List.mem_map, List.mem_range, Prod.mk.injEq] at hx
  obtain ⟨n, hn, j', hj, m, hm, rfl, rfl, rfl⟩ := hx
  exact plotVal_eq hD.dt_ne ev (plotEntries trafo) v n j' hm

/-- C43, `plot_error`: besides the discrete solution and its time derivative, the tables hold the absolute values of their
differences to the exact solution and to its time derivative, at the row's time and the column's point. -/
theorem C43_plot_error (hD : C.D.Ok) {nSpace nSub : ℕ} (hs : 0 < nSpace) (ev : ℕ → V →ₗ[ℝ] ℝ) (v : Vec) (s₀ : ℕ → V) :
    ∃ st, plotLoop C (mkDofmaps C) nSpace nSub (fun j => ev j)
        (plotErrorEntries (fun t j => ev j (C.D.sol t)) (fun t j => ev j (C.dsol t))) v { slab := s₀ } = (.ok (), st) ∧
      ∀ r j x, (r, j, x) ∈ st.cells →
        let u := C.discrete v (r / nSub) (((r % nSub : ℕ) : ℝ) / nSub)
        let d := C.discreteDot v (r / nSub) (((r % nSub : ℕ) : ℝ) / nSub)
        x = [ev j u, |ev j (u - C.D.sol (C.rowTime nSub r))|, ev j d, |ev j (d - C.dsol (C.rowTime nSub r))|] := by
  obtain ⟨st, h1, -, h3⟩ := plotLoop_run (C := C) (nSub := nSub)
    (g := plotErrorEntries (fun t j => ev j (C.D.sol t)) (fun t j => ev j (C.dsol t))) hs (fun j => ev j) v s₀
  refine ⟨st, h1, fun r j x hx => ?_⟩
  rw [h3] at hx
  simp only [plotCells, List.mem_flatMap, List.mem_map, List.mem_range, Prod.mk.injEq] at hx
  obtain ⟨n, hn, j', hj, m, hm, rfl, rfl, rfl⟩ := hx
  rw [plotVal_eq hD.dt_ne ev _ v n j' hm]
  simp only [entry, plotErrorEntries, map_sub, Cfg.rowTime]

/-! ## Non-vacuity -/

namespace Example
open Polynomial

/-- Twenty subdivisions, five evaluation points on `[0,1]`. -/
example (v : Vec) := C43_tables (C := cfgM) (disc_ok false false) (by norm_num [cfgM, cfg, disc]) (nSpace := 5) (nSub := 20)
  (by norm_num) (fun j => ev (j / 4)) (plotEntries abs) v 0

/-- Errors against the exact solution `t`. -/
example (v : Vec) := C43_tables (C := cfgM) (disc_ok false false) (by norm_num [cfgM, cfg, disc]) (nSpace := 5) (nSub := 20)
  (by norm_num) (fun j => ev (j / 4)) (plotErrorEntries (fun t _ => t) fun _ _ => 1) v 0

example (v : Vec) := C43_plot (C := cfgM) (disc_ok false false) (nSpace := 5) (nSub := 20) (by norm_num) (fun j => ev (j / 4))
  abs v 0
example (v : Vec) := C43_plot_error (C := cfgM) (disc_ok false false) (nSpace := 5) (nSub := 20) (by norm_num)
  (fun j => ev (j / 4)) v 0

/-- For the interpolant of `t` the table entry in row `20 + 5` is the time `1/2 + 1/8`. -/
example : entry cfgM 20 (fun j => ev (j / 4)) (plotEntries abs) linVec 25 3 = [5 / 8, 1] := by
  have h0 : cfgM.node linVec 1 0 = Polynomial.C (1 / 2) := by
    rw [linVec_interpolates 1 (by decide) 0 (by decide)]; norm_num [cfgM, cfg, disc]
  have h1 : cfgM.node linVec 1 1 = Polynomial.C 1 := by
    rw [linVec_interpolates 1 (by decide) 1 le_rfl]; norm_num [cfgM, cfg, disc]
  have hq : cfgM.D.q = 1 := rfl
  have hdt : cfgM.D.dt = 1 / 2 := rfl
  simp only [entry, plotEntries, Cfg.discrete, Cfg.discreteDot, hq, hdt, sum_range_succ, sum_range_zero, h0, h1]
  simp [phi, dphi, basisInTime]
  norm_num

end Example
end Dxss
