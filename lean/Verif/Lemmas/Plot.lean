import Verif.Lemmas.Errors

/-! # Running the sampling loops -/

namespace Dxss
set_option linter.unusedSectionVars false
variable {V : Type} [AddCommGroup V] [Module ℝ V] {C : Cfg V}

/-- Time number `m` of slab `n`, as computed. -/
noncomputable def plotTime (C : Cfg V) (nSub n m : ℕ) : ℝ := n * C.D.dt + C.D.dt * ((m : ℝ) / nSub)

/-- Entry computed for slab `n`, point `j`, time number `m` from coefficient values `vals`. -/
noncomputable def plotVal (C : Cfg V) (nSub : ℕ) (g : ℝ → ℕ → ℝ → ℝ → List ℝ) (vals : ℕ → ℕ → ℝ) (n j m : ℕ) : List ℝ :=
  g (plotTime C nSub n m) j
    (pySum C.D.q (fun ell => phi C.D.q ell ((plotTime C nSub n m - n * C.D.dt) / C.D.dt)) fun ell => vals ell j)
    (pySum C.D.q (fun ell => 1 / C.D.dt * dphi C.D.q ell ((plotTime C nSub n m - n * C.D.dt) / C.D.dt)) fun ell => vals ell j)

theorem linspace01_zipIdx (k : ℕ) : (linspace01 k).zipIdx = (List.range k).map fun (m : ℕ) => (((m : ℝ) / k), m) := by
  apply List.ext_getElem
  · simp [linspace01]
  · intro i h1 h2
    simp [linspace01]

variable {nSpace nSub : ℕ} {g : ℝ → ℕ → ℝ → ℝ → List ℝ}

theorem plotCell_run {n j m : ℕ} (hn : n < C.D.N) (hj : j < nSpace) (hm : m < nSub) (st : PlotSt V) :
    plotCell C nSpace nSub g n (n * nSub) j (((m : ℝ) / nSub), m) st = (.ok (), { st with
      ts := st.ts ++ if j = 0 then [plotTime C nSub n m] else []
      cells := st.cells ++ [(n * nSub + m, j, plotVal C nSub g st.vals n j m)] }) := by
  have hr : n * nSub + m < nSub * C.D.N := by
    calc n * nSub + m < n * nSub + nSub := by omega
      _ = nSub * (n + 1) := by ring
      _ ≤ _ := Nat.mul_le_mul_left _ hn
  unfold plotCell
  by_cases h0 : j = 0
  · subst h0
    simp [M.bind_run, M.modify, M.get, hr, hj, plotTime, plotVal]
  · simp [M.bind_run, M.modify, M.get, hr, hj, plotTime, plotVal, h0]

theorem plotTimes_run {n j : ℕ} (hn : n < C.D.N) (hj : j < nSpace) (l : List ℕ) (hl : ∀ m ∈ l, m < nSub) (st : PlotSt V) :
    M.forList (l.map fun (m : ℕ) => (((m : ℝ) / nSub), m)) (plotCell C nSpace nSub g n (n * nSub) j) st = (.ok (), { st with
      ts := st.ts ++ if j = 0 then l.map (plotTime C nSub n) else []
      cells := st.cells ++ l.map fun m => (n * nSub + m, j, plotVal C nSub g st.vals n j m) }) := by
  induction l generalizing st with
  | nil => simp
  | cons m l ih =>
    rw [List.map_cons, M.forList_cons, M.bind_ok (plotCell_run hn hj (hl m (by simp)) st),
      ih (fun m hm => hl m (by simp [hm]))]
    by_cases h0 : j = 0 <;> simp [h0]

theorem plotPoints_run {n : ℕ} (hn : n < C.D.N) (l : List ℕ) (hl : ∀ j ∈ l, j < nSpace) (st : PlotSt V) :
    M.forList l (fun j => M.forList (linspace01 nSub).zipIdx (plotCell C nSpace nSub g n (n * nSub) j)) st
      = (.ok (), { st with
      ts := st.ts ++ l.flatMap fun j => if j = 0 then (List.range nSub).map (plotTime C nSub n) else []
      cells := st.cells ++ l.flatMap fun j => (List.range nSub).map fun m =>
        (n * nSub + m, j, plotVal C nSub g st.vals n j m) }) := by
  induction l generalizing st with
  | nil => simp
  | cons j l ih =>
    rw [M.forList_cons, linspace01_zipIdx, M.bind_ok (plotTimes_run hn (hl j (by simp)) _ (by simp) st),
      ← linspace01_zipIdx, ih (fun m hm => hl m (by simp [hm]))]
    simp

/-- Loading the coefficient functions of a slab and evaluating them. -/
theorem plotLoad_run {n : ℕ} (hn : n < C.D.N) (v : Vec) (st : PlotSt V) :
    ∃ s, M.forList (List.range (C.D.q + 1)) (fun (ell : ℕ) => do
      let i ← M.lift (pyIdx ((mkDofmaps C).full 0) (((n * (C.D.q + 1) : ℕ) : ℤ) + ell))
      M.modify fun st : PlotSt V => { st with slab := Function.update st.slab ell (nodeAt C.fe v i) }) st
      = (.ok (), { st with slab := s }) ∧ ∀ j ≤ C.D.q, s j = C.u1Node v (n * (C.D.q + 1) + j) := by
  have hle : n * (C.D.q + 1) + (C.D.q + 1) ≤ (C.D.q + 1) * C.D.N := by
    calc _ = (C.D.q + 1) * (n + 1) := by ring
      _ ≤ _ := Nat.mul_le_mul_left _ hn
  obtain ⟨st', h1, ⟨l', e1, e2⟩, h3⟩ := M.forList_inv (σ := PlotSt V)
    (body := fun (ell : ℕ) => do
      let i ← M.lift (pyIdx ((mkDofmaps C).full 0) (((n * (C.D.q + 1) : ℕ) : ℤ) + ell))
      M.modify fun st : PlotSt V => { st with slab := Function.update st.slab ell (nodeAt C.fe v i) })
    (fun l st' => (∃ l', List.range (C.D.q + 1) = l' ++ l ∧ ∀ j ∈ l', st'.slab j = C.u1Node v (n * (C.D.q + 1) + j)) ∧
      st' = { st with slab := st'.slab })
    (by
      rintro ell l st' ⟨⟨l', e1, e2⟩, h3⟩
      have hlt : ell < C.D.q + 1 := List.mem_range.1 (by rw [e1]; simp)
      have e : (((n * (C.D.q + 1) : ℕ) : ℤ) + ell) = ((n * (C.D.q + 1) + ell : ℕ) : ℤ) := by push_cast; ring
      have hl := u1_lookup (C := C) (i := n * (C.D.q + 1) + ell) (by omega)
      refine ⟨_, by rw [e, M.bind_ok (by rw [M.lift_run, hl]), M.modify_run], ⟨l' ++ [ell], by simp [e1], ?_⟩, ?_⟩
      · intro j hj
        by_cases hje : j = ell
        · subst hje; simp [Cfg.u1Node]
        · simp only [List.mem_append, List.mem_singleton, hje, or_false] at hj
          simpa [hje] using e2 j hj
      · rw [h3])
    (List.range (C.D.q + 1)) st ⟨⟨[], rfl, by simp⟩, rfl⟩
  refine ⟨st'.slab, by rw [h1]; exact congrArg _ h3, fun j hj => e2 j ?_⟩
  rw [List.append_nil] at e1
  rw [← e1]; exact List.mem_range.2 (by omega)

theorem plotEval_run (ev : ℕ → V → ℝ) (st : PlotSt V) :
    ∃ a, M.forList (List.range (C.D.q + 1)) (fun (ell : ℕ) =>
      M.modify fun st : PlotSt V => { st with vals := Function.update st.vals ell fun j => ev j (st.slab ell) }) st
      = (.ok (), { st with vals := a }) ∧ ∀ ell ≤ C.D.q, ∀ j, a ell j = ev j (st.slab ell) := by
  obtain ⟨st', h1, ⟨l', e1, e2⟩, h3⟩ := M.forList_inv (σ := PlotSt V)
    (body := fun (ell : ℕ) =>
      M.modify fun st : PlotSt V => { st with vals := Function.update st.vals ell fun j => ev j (st.slab ell) })
    (fun l st' => (∃ l', List.range (C.D.q + 1) = l' ++ l ∧ ∀ i ∈ l', ∀ j, st'.vals i j = ev j (st.slab i)) ∧
      st' = { st with vals := st'.vals })
    (by
      rintro ell l st' ⟨⟨l', e1, e2⟩, h3⟩
      refine ⟨_, M.modify_run _ _, ⟨l' ++ [ell], by simp [e1], ?_⟩, ?_⟩
      · intro i hi j
        by_cases hie : i = ell
        · subst hie; simp; rw [h3]
        · simp only [List.mem_append, List.mem_singleton, hie, or_false] at hi
          simpa [hie] using e2 i hi j
      · rw [h3])
    (List.range (C.D.q + 1)) st ⟨⟨[], rfl, by simp⟩, rfl⟩
  refine ⟨st'.vals, by rw [h1]; exact congrArg _ h3, fun i hi => e2 i ?_⟩
  rw [List.append_nil] at e1
  rw [← e1]; exact List.mem_range.2 (by omega)

theorem plotVal_congr {vals vals' : ℕ → ℕ → ℝ} {n j m : ℕ} (h : ∀ ell ≤ C.D.q, vals ell j = vals' ell j) :
    plotVal C nSub g vals n j m = plotVal C nSub g vals' n j m := by
  have e : ∀ c, pySum C.D.q c (fun ell => vals ell j) = pySum C.D.q c (fun ell => vals' ell j) := fun c => by
    unfold pySum
    congr 1
    refine List.map_congr_left fun ell hl => ?_
    simp only [h ell (by simpa [Nat.lt_succ_iff] using hl)]
  unfold plotVal
  rw [e, e]

/-- Entries and times of the first `k` slabs. -/
noncomputable def plotCells (C : Cfg V) (nSpace nSub : ℕ) (ev : ℕ → V → ℝ) (g : ℝ → ℕ → ℝ → ℝ → List ℝ) (v : Vec) (k : ℕ) :
    List (ℕ × ℕ × List ℝ) :=
  (List.range k).flatMap fun n => (List.range nSpace).flatMap fun j => (List.range nSub).map fun m =>
    (n * nSub + m, j, plotVal C nSub g (fun ell j => ev j (C.u1Node v (n * (C.D.q + 1) + ell))) n j m)

noncomputable def plotTimes (C : Cfg V) (nSub k : ℕ) : List ℝ :=
  (List.range k).flatMap fun n => (List.range nSub).map (plotTime C nSub n)

theorem plotLoop_run (hs : 0 < nSpace) (ev : ℕ → V → ℝ) (v : Vec) (s₀ : ℕ → V) :
    ∃ st, plotLoop C (mkDofmaps C) nSpace nSub ev g v { slab := s₀ } = (.ok (), st) ∧
      st.ts = plotTimes C nSub C.D.N ∧ st.cells = plotCells C nSpace nSub ev g v C.D.N := by
  have hj0 : ∀ a : List ℝ, ((List.range nSpace).flatMap fun j => if j = 0 then a else []) = a := fun a => by
    obtain ⟨k, rfl⟩ : ∃ k, nSpace = k + 1 := ⟨nSpace - 1, by omega⟩
    rw [List.range_succ_eq_map, List.flatMap_cons, List.flatMap_map]
    simp
  have key : ∀ (k : ℕ) (m : ℕ) (st : PlotSt V), m + k = C.D.N → st.ts = plotTimes C nSub m →
      st.cells = plotCells C nSpace nSub ev g v m →
      ∃ c st', M.forAcc (List.range' m k) (((m * (C.D.q + 1) : ℕ) : ℤ), m * nSub) (fun (c : ℤ × ℕ) n => do
        M.forList (List.range (C.D.q + 1)) fun (ell : ℕ) => do
          let i ← M.lift (pyIdx ((mkDofmaps C).full 0) (c.1 + ell))
          M.modify fun st : PlotSt V => { st with slab := Function.update st.slab ell (nodeAt C.fe v i) }
        M.forList (List.range (C.D.q + 1)) fun (ell : ℕ) =>
          M.modify fun st : PlotSt V => { st with vals := Function.update st.vals ell fun j => ev j (st.slab ell) }
        M.forList (List.range nSpace) fun j =>
          M.forList (linspace01 nSub).zipIdx (plotCell C nSpace nSub g n c.2 j)
        return (c.1 + (C.D.q + 1), c.2 + nSub)) st = (.ok c, st') ∧ st'.ts = plotTimes C nSub C.D.N ∧
          st'.cells = plotCells C nSpace nSub ev g v C.D.N := by
    intro k
    induction k with
    | zero =>
      intro m st hm h1 h2
      rw [Nat.add_zero] at hm
      exact ⟨_, st, rfl, hm ▸ h1, hm ▸ h2⟩
    | succ k ih =>
      intro m st hm h1 h2
      obtain ⟨s, r1, hs1⟩ := plotLoad_run (C := C) (n := m) (by omega) v st
      obtain ⟨a, r2, ha⟩ := plotEval_run (C := C) ev { st with slab := s }
      have r3 := plotPoints_run (C := C) (nSpace := nSpace) (nSub := nSub) (g := g) (n := m) (by omega)
        (List.range nSpace) (by simp) { st with slab := s, vals := a }
      have hval : ∀ ell ≤ C.D.q, ∀ j, a ell j = ev j (C.u1Node v (m * (C.D.q + 1) + ell)) := fun ell hl j => by
        rw [ha ell hl j]; exact congrArg _ (hs1 ell hl)
      rw [List.range'_succ, M.forAcc]
      rw [M.bind_ok (a := (((m * (C.D.q + 1) : ℕ) : ℤ) + (C.D.q + 1), m * nSub + nSub)) (by
        rw [M.bind_ok r1, M.bind_ok r2, M.bind_ok r3]; rfl)]
      have hi : ((((m * (C.D.q + 1) : ℕ) : ℤ) + (C.D.q + 1), m * nSub + nSub) : ℤ × ℕ)
          = ((((m + 1) * (C.D.q + 1) : ℕ) : ℤ), (m + 1) * nSub) := by push_cast; ring_nf
      rw [hi]
      refine ih (m + 1) _ (by omega) ?_ ?_
      · simp only [hj0, h1, plotTimes, List.range_succ, List.flatMap_append]
        simp
      · simp only [h2, plotCells, List.range_succ, List.flatMap_append]
        congr 1
        simp only [List.flatMap_cons, List.flatMap_nil, List.append_nil]
        congr 1
        funext j
        refine List.map_congr_left fun i _ => ?_
        rw [plotVal_congr (vals' := fun ell j => ev j (C.u1Node v (m * (C.D.q + 1) + ell))) fun ell hl => hval ell hl j]
  obtain ⟨c, st', h1, h2, h3⟩ := key C.D.N 0 { slab := s₀ } (by omega) (by simp [plotTimes]) (by simp [plotCells])
  refine ⟨st', ?_, h2, h3⟩
  rw [← List.range_eq_range'] at h1
  unfold plotLoop
  rw [M.bind_ok (by simpa using h1)]
  rfl

end Dxss
