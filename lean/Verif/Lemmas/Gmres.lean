import Verif.Spec.Gmres
import Verif.Lemmas.Monad

/-! # Running the GMRes driver -/

namespace Dxss.Gmres

/-- Effect of one option. -/
def OptStep {α : Type} (db : OptDB) (key : String) (parse : String → Option α) (g : α → Ksp → Ksp)
    (k k' : Ksp) : Prop :=
  (db key = none ∧ k' = k) ∨ ∃ str v, db key = some str ∧ parse str = some v ∧ k' = g v k

theorem option_run {α : Type} {key : String} {parse : String → Option α} {g : α → Ksp → Ksp}
    (s : GSt) :
    (∃ s', option key parse (fun v => modKsp (g v)) s = (.ok (), s') ∧ s'.db = s.db ∧ s'.log = s.log ∧
      OptStep s.db key parse g s.ksp s'.ksp) ∨
    (option key parse (fun v => modKsp (g v)) s = (.error .petscError, s) ∧
      ∃ str, s.db key = some str ∧ parse str = none) := by
  unfold option
  rw [M.bind_run]
  simp only [M.get_run]
  rcases h : s.db key with _ | str
  · exact Or.inl ⟨s, rfl, rfl, rfl, Or.inl ⟨h, rfl⟩⟩
  · rcases h' : parse str with _ | v
    · exact Or.inr ⟨by simp only [h', M.raise_run], str, rfl, h'⟩
    · refine Or.inl ⟨{ s with ksp := g v s.ksp }, ?_, rfl, rfl, Or.inr ⟨str, v, h, h', rfl⟩⟩
      simp only [h', modKsp, M.modify_run]

theorem OptStep.same {α : Type} {db : OptDB} {key : String} {parse : String → Option α}
    {g : α → Ksp → Ksp} {k k' : Ksp} (h : OptStep db key parse g k k') {β : Type} (π : Ksp → β)
    (hπ : ∀ v, π (g v k) = π k) : π k' = π k := by
  rcases h with ⟨_, rfl⟩ | ⟨_, w, _, _, rfl⟩
  · rfl
  · exact hπ w

theorem OptStep.sel {α : Type} {db : OptDB} {key : String} {parse : String → Option α}
    {g : α → Ksp → Ksp} {k k' : Ksp} (h : OptStep db key parse g k k') (π : Ksp → α)
    (hπ : ∀ v, π (g v k) = v) : Sel db key parse (π k) (π k') := by
  rcases h with ⟨hn, rfl⟩ | ⟨str, w, hs, hp, rfl⟩
  · exact Or.inl ⟨hn, rfl⟩
  · exact Or.inr ⟨str, hs, by rw [hπ, hp]⟩

/-- What the options do to a configuration. -/
structure FromOpts (P : Petsc) (db : OptDB) (k k' : Ksp) : Prop where
  op : k'.op = k.op
  size : k'.size = k.size
  pc : k'.pc = k.pc
  monitored : k'.monitored = k.monitored
  kspType : Sel db "ksp_type" some k.kspType k'.kspType
  pcType : Sel db "pc_type" some k.pcType k'.pcType
  maxIt : Sel db "ksp_max_it" P.parseInt k.maxIt k'.maxIt
  rtol : Sel db "ksp_rtol" P.parseReal k.rtol k'.rtol
  atol : Sel db "ksp_atol" P.parseReal k.atol k'.atol
  restart : Sel db "ksp_gmres_restart" P.parseInt k.restart k'.restart
  prealloc : Sel db "ksp_gmres_preallocate" P.parseBool k.prealloc k'.prealloc
  mgs : Sel db "ksp_gmres_modifiedgramschmidt" P.parseBool k.mgs k'.mgs
  refine : Sel db "ksp_gmres_cgs_refinement_type" some k.refine k'.refine

/-- Some option of the database cannot be parsed. -/
def BadOpt (P : Petsc) (db : OptDB) : Prop :=
  (∃ key ∈ ["ksp_max_it", "ksp_gmres_restart"], ∃ str, db key = some str ∧ P.parseInt str = none) ∨
  (∃ key ∈ ["ksp_rtol", "ksp_atol"], ∃ str, db key = some str ∧ P.parseReal str = none) ∨
  (∃ key ∈ ["ksp_gmres_preallocate", "ksp_gmres_modifiedgramschmidt"],
    ∃ str, db key = some str ∧ P.parseBool str = none)

theorem setFromOptions_run (P : Petsc) (s : GSt) :
    (∃ s', setFromOptions P s = (.ok (), s') ∧ s'.db = s.db ∧ s'.log = s.log ∧
      FromOpts P s.db s.ksp s'.ksp) ∨
    ∃ s', setFromOptions P s = (.error .petscError, s') ∧ s'.db = s.db ∧ s'.log = s.log ∧
      BadOpt P s.db := by
  unfold setFromOptions
  rcases option_run (key := "pc_type") (parse := some) (g := fun v k => { k with pcType := v }) s
    with ⟨s1, e1, d1, l1, h1⟩ | ⟨e, bad⟩
  swap
  · obtain ⟨_, _, h⟩ := bad; simp at h
  rw [M.bind_ok e1]
  rcases option_run (key := "ksp_type") (parse := some) (g := fun v k => { k with kspType := v }) s1
    with ⟨s2, e2, d2, l2, h2⟩ | ⟨e, bad⟩
  swap
  · obtain ⟨_, _, h⟩ := bad; simp at h
  rw [M.bind_ok e2]
  rw [d1] at d2 h2; rw [l1] at l2
  rcases option_run (key := "ksp_max_it") (parse := P.parseInt) (g := fun v k => { k with maxIt := v }) s2
    with ⟨s3, e3, d3, l3, h3⟩ | ⟨e, bad⟩
  swap
  · rw [d2] at bad
    exact Or.inr ⟨s2, by rw [M.bind_error e], d2, l2, Or.inl ⟨"ksp_max_it", by simp, bad⟩⟩
  rw [M.bind_ok e3]
  rw [d2] at d3 h3; rw [l2] at l3
  rcases option_run (key := "ksp_rtol") (parse := P.parseReal) (g := fun v k => { k with rtol := v }) s3
    with ⟨s4, e4, d4, l4, h4⟩ | ⟨e, bad⟩
  swap
  · rw [d3] at bad
    exact Or.inr ⟨s3, by rw [M.bind_error e], d3, l3, Or.inr (Or.inl ⟨"ksp_rtol", by simp, bad⟩)⟩
  rw [M.bind_ok e4]
  rw [d3] at d4 h4; rw [l3] at l4
  rcases option_run (key := "ksp_atol") (parse := P.parseReal) (g := fun v k => { k with atol := v }) s4
    with ⟨s5, e5, d5, l5, h5⟩ | ⟨e, bad⟩
  swap
  · rw [d4] at bad
    exact Or.inr ⟨s4, by rw [M.bind_error e], d4, l4, Or.inr (Or.inl ⟨"ksp_atol", by simp, bad⟩)⟩
  rw [M.bind_ok e5]
  rw [d4] at d5 h5; rw [l4] at l5
  rcases option_run (key := "ksp_gmres_restart") (parse := P.parseInt)
      (g := fun v k => { k with restart := v }) s5 with ⟨s6, e6, d6, l6, h6⟩ | ⟨e, bad⟩
  swap
  · rw [d5] at bad
    exact Or.inr ⟨s5, by rw [M.bind_error e], d5, l5, Or.inl ⟨"ksp_gmres_restart", by simp, bad⟩⟩
  rw [M.bind_ok e6]
  rw [d5] at d6 h6; rw [l5] at l6
  rcases option_run (key := "ksp_gmres_preallocate") (parse := P.parseBool)
      (g := fun v k => { k with prealloc := v }) s6 with ⟨s7, e7, d7, l7, h7⟩ | ⟨e, bad⟩
  swap
  · rw [d6] at bad
    exact Or.inr ⟨s6, by rw [M.bind_error e], d6, l6, Or.inr (Or.inr ⟨"ksp_gmres_preallocate", by simp, bad⟩)⟩
  rw [M.bind_ok e7]
  rw [d6] at d7 h7; rw [l6] at l7
  rcases option_run (key := "ksp_gmres_modifiedgramschmidt") (parse := P.parseBool)
      (g := fun v k => { k with mgs := v }) s7 with ⟨s8, e8, d8, l8, h8⟩ | ⟨e, bad⟩
  swap
  · rw [d7] at bad
    exact Or.inr ⟨s7, by rw [M.bind_error e], d7, l7, Or.inr (Or.inr ⟨"ksp_gmres_modifiedgramschmidt", by simp, bad⟩)⟩
  rw [M.bind_ok e8]
  rw [d7] at d8 h8; rw [l7] at l8
  rcases option_run (key := "ksp_gmres_cgs_refinement_type") (parse := some)
      (g := fun v k => { k with refine := v }) s8 with ⟨s9, e9, d9, l9, h9⟩ | ⟨e, bad⟩
  swap
  · obtain ⟨_, _, h⟩ := bad; simp at h
  refine Or.inl ⟨s9, e9, d9.trans d8, l9.trans l8, ?_⟩
  rw [d8] at h9
  clear e1 e2 e3 e4 e5 e6 e7 e8 e9 d1 d2 d3 d4 d5 d6 d7 d8 d9 l1 l2 l3 l4 l5 l6 l7 l8 l9
  have S1 := h1.sel Ksp.pcType fun _ => rfl
  have S2 := h2.sel Ksp.kspType fun _ => rfl
  have S3 := h3.sel Ksp.maxIt fun _ => rfl
  have S4 := h4.sel Ksp.rtol fun _ => rfl
  have S5 := h5.sel Ksp.atol fun _ => rfl
  have S6 := h6.sel Ksp.restart fun _ => rfl
  have S7 := h7.sel Ksp.prealloc fun _ => rfl
  have S8 := h8.sel Ksp.mgs fun _ => rfl
  have S9 := h9.sel Ksp.refine fun _ => rfl
  constructor
  · rw [h9.same Ksp.op (fun _ => rfl), h8.same Ksp.op (fun _ => rfl), h7.same Ksp.op (fun _ => rfl), h6.same Ksp.op (fun _ => rfl),
      h5.same Ksp.op (fun _ => rfl), h4.same Ksp.op (fun _ => rfl), h3.same Ksp.op (fun _ => rfl), h2.same Ksp.op (fun _ => rfl),
      h1.same Ksp.op (fun _ => rfl)]
  · rw [h9.same Ksp.size (fun _ => rfl), h8.same Ksp.size (fun _ => rfl), h7.same Ksp.size (fun _ => rfl),
      h6.same Ksp.size (fun _ => rfl), h5.same Ksp.size (fun _ => rfl), h4.same Ksp.size (fun _ => rfl),
      h3.same Ksp.size (fun _ => rfl), h2.same Ksp.size (fun _ => rfl), h1.same Ksp.size (fun _ => rfl)]
  · rw [h9.same Ksp.pc (fun _ => rfl), h8.same Ksp.pc (fun _ => rfl), h7.same Ksp.pc (fun _ => rfl), h6.same Ksp.pc (fun _ => rfl),
      h5.same Ksp.pc (fun _ => rfl), h4.same Ksp.pc (fun _ => rfl), h3.same Ksp.pc (fun _ => rfl), h2.same Ksp.pc (fun _ => rfl),
      h1.same Ksp.pc (fun _ => rfl)]
  · rw [h9.same Ksp.monitored (fun _ => rfl), h8.same Ksp.monitored (fun _ => rfl), h7.same Ksp.monitored (fun _ => rfl),
      h6.same Ksp.monitored (fun _ => rfl), h5.same Ksp.monitored (fun _ => rfl), h4.same Ksp.monitored (fun _ => rfl),
      h3.same Ksp.monitored (fun _ => rfl), h2.same Ksp.monitored (fun _ => rfl), h1.same Ksp.monitored (fun _ => rfl)]
  · rw [h9.same Ksp.kspType (fun _ => rfl), h8.same Ksp.kspType (fun _ => rfl), h7.same Ksp.kspType (fun _ => rfl),
      h6.same Ksp.kspType (fun _ => rfl), h5.same Ksp.kspType (fun _ => rfl), h4.same Ksp.kspType (fun _ => rfl),
      h3.same Ksp.kspType (fun _ => rfl), ← h1.same Ksp.kspType (fun _ => rfl)]
    exact S2
  · rw [h9.same Ksp.pcType (fun _ => rfl), h8.same Ksp.pcType (fun _ => rfl), h7.same Ksp.pcType (fun _ => rfl),
      h6.same Ksp.pcType (fun _ => rfl), h5.same Ksp.pcType (fun _ => rfl), h4.same Ksp.pcType (fun _ => rfl),
      h3.same Ksp.pcType (fun _ => rfl), h2.same Ksp.pcType (fun _ => rfl)]
    exact S1
  · rw [h9.same Ksp.maxIt (fun _ => rfl), h8.same Ksp.maxIt (fun _ => rfl), h7.same Ksp.maxIt (fun _ => rfl),
      h6.same Ksp.maxIt (fun _ => rfl), h5.same Ksp.maxIt (fun _ => rfl), h4.same Ksp.maxIt (fun _ => rfl),
      ← h1.same Ksp.maxIt (fun _ => rfl), ← h2.same Ksp.maxIt (fun _ => rfl)]
    exact S3
  · rw [h9.same Ksp.rtol (fun _ => rfl), h8.same Ksp.rtol (fun _ => rfl), h7.same Ksp.rtol (fun _ => rfl),
      h6.same Ksp.rtol (fun _ => rfl), h5.same Ksp.rtol (fun _ => rfl),
      ← h1.same Ksp.rtol (fun _ => rfl), ← h2.same Ksp.rtol (fun _ => rfl), ← h3.same Ksp.rtol (fun _ => rfl)]
    exact S4
  · rw [h9.same Ksp.atol (fun _ => rfl), h8.same Ksp.atol (fun _ => rfl), h7.same Ksp.atol (fun _ => rfl),
      h6.same Ksp.atol (fun _ => rfl),
      ← h1.same Ksp.atol (fun _ => rfl), ← h2.same Ksp.atol (fun _ => rfl), ← h3.same Ksp.atol (fun _ => rfl),
      ← h4.same Ksp.atol (fun _ => rfl)]
    exact S5
  · rw [h9.same Ksp.restart (fun _ => rfl), h8.same Ksp.restart (fun _ => rfl), h7.same Ksp.restart (fun _ => rfl),
      ← h1.same Ksp.restart (fun _ => rfl), ← h2.same Ksp.restart (fun _ => rfl), ← h3.same Ksp.restart (fun _ => rfl),
      ← h4.same Ksp.restart (fun _ => rfl), ← h5.same Ksp.restart (fun _ => rfl)]
    exact S6
  · rw [h9.same Ksp.prealloc (fun _ => rfl), h8.same Ksp.prealloc (fun _ => rfl),
      ← h1.same Ksp.prealloc (fun _ => rfl), ← h2.same Ksp.prealloc (fun _ => rfl), ← h3.same Ksp.prealloc (fun _ => rfl),
      ← h4.same Ksp.prealloc (fun _ => rfl), ← h5.same Ksp.prealloc (fun _ => rfl), ← h6.same Ksp.prealloc (fun _ => rfl)]
    exact S7
  · rw [h9.same Ksp.mgs (fun _ => rfl),
      ← h1.same Ksp.mgs (fun _ => rfl), ← h2.same Ksp.mgs (fun _ => rfl), ← h3.same Ksp.mgs (fun _ => rfl),
      ← h4.same Ksp.mgs (fun _ => rfl), ← h5.same Ksp.mgs (fun _ => rfl), ← h6.same Ksp.mgs (fun _ => rfl),
      ← h7.same Ksp.mgs (fun _ => rfl)]
    exact S8
  · rw [← h1.same Ksp.refine (fun _ => rfl), ← h2.same Ksp.refine (fun _ => rfl), ← h3.same Ksp.refine (fun _ => rfl),
      ← h4.same Ksp.refine (fun _ => rfl), ← h5.same Ksp.refine (fun _ => rfl), ← h6.same Ksp.refine (fun _ => rfl),
      ← h7.same Ksp.refine (fun _ => rfl), ← h8.same Ksp.refine (fun _ => rfl)]
    exact S9

theorem setRestart_run (r : ℤ) (s : GSt) : setRestart r s =
    if r < 1 then (.error .petscError, { s with log := s.log ++ [.setRestart r] })
    else (.ok (), { s with log := s.log ++ [.setRestart r], ksp := { s.ksp with restart := r } }) := by
  unfold setRestart call modKsp
  split_ifs with h <;> simp [M.bind_run]

theorem setTolerances_run {rt at' : ℝ} {m : ℤ} (h : ValidTol rt at' m) (s : GSt) :
    setTolerances rt at' m s = (.ok (), { s with
      log := s.log ++ [.setTolerances rt at' m],
      ksp := { s.ksp with rtol := rt, atol := at', maxIt := m } }) := by
  obtain ⟨h1, h2, h3, h4⟩ := h
  have a1 : rt ≠ -2 := by linarith
  have a2 : at' ≠ -2 := by linarith
  have a3 : m ≠ -2 := by omega
  have b1 : ¬ (rt < 0 ∨ 1 ≤ rt) := by push Not; exact ⟨h1, h2⟩
  have b2 : ¬ at' < 0 := not_lt.2 h3
  have b3 : ¬ m < 0 := not_lt.2 h4
  simp [setTolerances, call, modKsp, M.bind_run, a1, a2, a3, b1, b2, b3]

/-- Whatever the values, they are handed to PETSc; the call raises or returns, and touches the database
in no case. -/
theorem setTolerances_log (rt at' : ℝ) (m : ℤ) (s : GSt) :
    (setTolerances rt at' m s).2.log = s.log ++ [.setTolerances rt at' m] ∧
    (setTolerances rt at' m s).2.db = s.db ∧
    (setTolerances rt at' m s).2.ksp.op = s.ksp.op ∧
    (setTolerances rt at' m s).2.ksp.size = s.ksp.size ∧
    (setTolerances rt at' m s).2.ksp.monitored = s.ksp.monitored ∧
    ((setTolerances rt at' m s).1 = .ok () ∨ (setTolerances rt at' m s).1 = .error .petscError) := by
  unfold setTolerances call modKsp
  by_cases a1 : rt ≠ -2 <;> by_cases a2 : at' ≠ -2 <;> by_cases a3 : m ≠ -2 <;>
  by_cases b1 : rt < 0 ∨ 1 ≤ rt <;> by_cases b2 : at' < 0 <;> by_cases b3 : m < 0 <;>
  simp [M.bind_run, a1, a2, a3, b1, b2, b3]

/-- The database after the three assignments of the function. -/
def withOpts (db : OptDB) : OptDB := fun name =>
  if name = "ksp_gmres_cgs_refinement_type" then some "refine_ifneeded"
  else if name = "ksp_gmres_modifiedgramschmidt" then some "true"
  else if name = "ksp_gmres_preallocate" then some "true"
  else db name

variable (P : Petsc) (A : Vec → Vec) (n : ℕ) (b : Vec) (pre : Vec → Vec) (maxsteps : ℤ)
  (tol : Option ℝ) (restart : Option ℤ) (printrates : Bool) (reltol : Option ℝ)

/-- The configuration before the options are read. -/
noncomputable def argKsp : Ksp :=
  { op := A, size := n, kspType := "gmres", restart := orDefault restart 1000,
    rtol := orDefault reltol 1e-7, atol := orDefault tol 1e-12, maxIt := maxsteps,
    pcType := "python", pc := some pre }

/-- All runs of the function. -/
theorem run_cases (s : GSt) :
    let run := getGmresSolution P A n b pre maxsteps tol restart printrates reltol s
    let R := orDefault restart 1000
    let rt := orDefault reltol 1e-7
    let at' := orDefault tol 1e-12
    (R < 1 ∧ run.1 = .error .petscError ∧ run.2.log = s.log ++ [.setRestart R] ∧ run.2.db = s.db) ∨
    (1 ≤ R ∧ run.1 = .error .petscError ∧ ¬ ValidTol rt at' maxsteps ∧
      run.2.log = s.log ++ [.setRestart R, .setTolerances rt at' maxsteps] ∧ run.2.db = s.db) ∨
    (1 ≤ R ∧ run.1 = .error .petscError ∧ run.2.db = withOpts s.db ∧ BadOpt P (withOpts s.db) ∧
      run.2.log = s.log ++ [.setRestart R, .setTolerances rt at' maxsteps]) ∨
    (1 ≤ R ∧ run.2.db = withOpts s.db ∧ ∃ k,
      (ValidTol rt at' maxsteps → ∃ k0, FromOpts P (withOpts s.db) (argKsp A n pre maxsteps tol restart reltol) k0 ∧
        k = { k0 with monitored := printrates }) ∧
      run.2.log = s.log ++ [.setRestart R, .setTolerances rt at' maxsteps]
        ++ (if printrates then [.setMonitor] else []) ++ [.solve k (withOpts s.db) b] ∧
      k.op = A ∧ k.size = n ∧ k.pc = some pre ∧ k.monitored = printrates ∧
      ((∃ e, P.solve k (withOpts s.db) b = .error e ∧ run.1 = .error e) ∨
        ∃ out, P.solve k (withOpts s.db) b = .ok out ∧
          ((out.reason < 0 ∧ run.1 = .error .petscError) ∨
           (0 ≤ out.reason ∧ run.1 = .ok (out.x, P.residual k (withOpts s.db) b out))))) := by
  intro run R rt at'
  let s1 : GSt := { s with ksp := { op := A, size := n, kspType := "gmres" } }
  have h0 : run = (do
      setRestart R
      setTolerances rt at' maxsteps
      modKsp fun k => { k with pcType := "python", pc := some pre }
      setValue "ksp_gmres_cgs_refinement_type" "refine_ifneeded"
      setValue "ksp_gmres_modifiedgramschmidt" "true"
      setValue "ksp_gmres_preallocate" "true"
      setFromOptions P
      if printrates then
        call .setMonitor
        modKsp fun k => { k with monitored := true }
      let s ← M.get
      call (.solve s.ksp s.db b)
      let out ← M.lift (P.solve s.ksp s.db b)
      if out.reason < 0 then M.raise .petscError
      return (out.x, P.residual s.ksp s.db b out)) s1 := by
    cases restart <;> cases tol <;> cases reltol <;> rfl
  by_cases hR : R < 1
  · left
    rw [h0, M.bind_error (by rw [setRestart_run, if_pos hR])]
    exact ⟨hR, rfl, rfl, rfl⟩
  right
  have hR' : 1 ≤ R := not_lt.1 hR
  rw [M.bind_ok (by rw [setRestart_run, if_neg hR])] at h0
  set s2 : GSt := { s1 with log := s1.log ++ [.setRestart R], ksp := { s1.ksp with restart := R } } with hs2
  obtain ⟨l3, d3, o3, z3, m3, r3⟩ := setTolerances_log rt at' maxsteps s2
  rcases r3 with r3 | r3
  swap
  · left
    rw [M.bind_error (Prod.ext r3 rfl)] at h0
    refine ⟨hR', by rw [h0], ?_, by rw [h0, l3]; simp [hs2, s1], by rw [h0, d3]⟩
    intro hv
    rw [setTolerances_run hv] at r3
    simp at r3
  right
  have hv3 : ValidTol rt at' maxsteps → (setTolerances rt at' maxsteps s2).2.ksp =
      { s2.ksp with rtol := rt, atol := at', maxIt := maxsteps } := by
    intro hv; rw [setTolerances_run hv]
  have e3 : setTolerances rt at' maxsteps s2 = (.ok (), (setTolerances rt at' maxsteps s2).2) :=
    Prod.ext r3 rfl
  generalize (setTolerances rt at' maxsteps s2).2 = s3 at e3 l3 d3 o3 z3 m3 hv3
  rw [M.bind_ok e3] at h0
  let s4 : GSt := { s3 with ksp := { s3.ksp with pcType := "python", pc := some pre },
                            db := withOpts s.db }
  have hdb : ((s3.db.set "ksp_gmres_cgs_refinement_type" "refine_ifneeded").set
      "ksp_gmres_modifiedgramschmidt" "true").set "ksp_gmres_preallocate" "true" = withOpts s.db := by
    funext name
    rw [d3]
    simp only [OptDB.set, Function.update_apply, withOpts]
    by_cases h1 : name = "ksp_gmres_cgs_refinement_type"
    · subst h1; simp
    · by_cases h2 : name = "ksp_gmres_modifiedgramschmidt"
      · subst h2; simp
      · by_cases h3 : name = "ksp_gmres_preallocate"
        · subst h3; simp
        · simp only [h1, h2, h3, if_false]; rfl
  have hlog : s3.log = s.log ++ [.setRestart R, .setTolerances rt at' maxsteps] := by
    rw [l3]; simp [hs2, s1]
  replace h0 : run = (do
      setFromOptions P
      if printrates then
        call .setMonitor
        modKsp fun k => { k with monitored := true }
      let s ← M.get
      call (.solve s.ksp s.db b)
      let out ← M.lift (P.solve s.ksp s.db b)
      if out.reason < 0 then M.raise .petscError
      return (out.x, P.residual s.ksp s.db b out)) s4 := by
    rw [h0]
    simp only [s4, ← hdb]
    rfl
  rcases setFromOptions_run P s4 with ⟨s5, e5, d5, l5, f5⟩ | ⟨s5, e5, d5, l5, bad⟩
  swap
  · left
    rw [M.bind_error e5] at h0
    exact ⟨hR', by rw [h0], by rw [h0]; exact d5, bad, by rw [h0]; exact l5.trans hlog⟩
  right
  rw [M.bind_ok e5] at h0
  set k : Ksp := { s5.ksp with monitored := printrates } with hk
  have m5 : s5.ksp.monitored = false := by rw [f5.monitored]; exact m3
  let s6 : GSt := { s5 with ksp := k, log := s5.log ++ (if printrates then [.setMonitor] else []) }
  replace h0 : run = (do
      call (.solve s6.ksp s6.db b)
      let out ← M.lift (P.solve s6.ksp s6.db b)
      if out.reason < 0 then M.raise .petscError
      return (out.x, P.residual s6.ksp s6.db b out)) s6 := by
    rw [h0]
    cases printrates with
    | true => rfl
    | false =>
      have : s6 = s5 := by
        have : k = s5.ksp := by rw [hk, ← m5]
        simp only [s6, this]; simp
      rw [this]
      simp only [Bool.false_eq_true, if_false]
      rfl
  have d6 : s6.db = withOpts s.db := d5
  have hk6 : s6.ksp = k := rfl
  have l6 : s6.log = s.log ++ [.setRestart R, .setTolerances rt at' maxsteps]
      ++ (if printrates then [.setMonitor] else []) := by
    change s5.log ++ _ = _
    rw [l5]; change s3.log ++ _ = _; rw [hlog]
  rw [hk6, d6] at h0
  have hrest : run.2.db = withOpts s.db ∧ run.2.log = s6.log ++ [.solve k (withOpts s.db) b] := by
    rw [h0]
    rcases ho : P.solve k (withOpts s.db) b with e | out
    · exact ⟨d6, rfl⟩
    · simp only [M.bind_run, call, M.modify_run, M.lift_run]
      by_cases hr : out.reason < 0
      · simp only [if_pos hr]; exact ⟨d6, rfl⟩
      · simp only [if_neg hr]; exact ⟨d6, rfl⟩
  refine ⟨hR', hrest.1, k, ?_, by rw [hrest.2, l6], ?_, ?_, ?_, rfl, ?_⟩
  · intro hv
    refine ⟨s5.ksp, ?_, rfl⟩
    have : s4.ksp = argKsp A n pre maxsteps tol restart reltol := by
      simp only [s4, hv3 hv]; rfl
    rw [← this]; exact f5
  · change s5.ksp.op = A; rw [f5.op]; exact o3
  · change s5.ksp.size = n; rw [f5.size]; exact z3
  · change s5.ksp.pc = some pre; rw [f5.pc]
  · rw [h0]
    rcases ho : P.solve k (withOpts s.db) b with e | out
    · exact Or.inl ⟨e, rfl, rfl⟩
    · refine Or.inr ⟨out, rfl, ?_⟩
      simp only [M.bind_run, call, M.modify_run, M.lift_run]
      by_cases hr : out.reason < 0
      · left; simp only [if_pos hr]; exact ⟨hr, rfl⟩
      · right; simp only [if_neg hr]; exact ⟨not_lt.1 hr, rfl⟩

end Dxss.Gmres
