import Verif.Lemmas.Gmres

/-!
# C44, C45: the GMRes driver
-/

namespace Dxss.Gmres

variable (P : Petsc) (A : Vec → Vec) (n : ℕ) (b : Vec) (pre : Vec → Vec) (maxsteps : ℤ)
  (tol : Option ℝ) (restart : Option ℤ) (printrates : Bool) (reltol : Option ℝ)

/-! ### C44 -/

/-- A pair is returned only after a solve for `b` with the given operator and preconditioner that PETSc
reported with a non-negative reason, and then it consists of that solution and the true residual. -/
theorem C44_success (hP : BuildsResidual P) {s s' : GSt} {x r : Vec}
    (h : getGmresSolution P A n b pre maxsteps tol restart printrates reltol s = (.ok (x, r), s')) :
    (∃ k db out, s'.log.getLast? = some (.solve k db b) ∧ k.op = A ∧ k.size = n ∧ k.pc = some pre ∧
      P.solve k db b = .ok out ∧ 0 ≤ out.reason ∧ x = out.x) ∧
    ∀ i, r i = b i - A x i := by
  have key := run_cases P A n b pre maxsteps tol restart printrates reltol s
  simp only [h] at key
  rcases key with ⟨_, e, _⟩ | ⟨_, e, _⟩ | ⟨_, e, _⟩ | ⟨_, hdb, k, _, hlog, hop, hsz, hpc, _, hs⟩
  · simp at e
  · simp at e
  · simp at e
  rcases hs with ⟨e, _, h'⟩ | ⟨out, hsol, ⟨_, h'⟩ | ⟨hr, h'⟩⟩
  · simp at h'
  · simp at h'
  · simp only [Except.ok.injEq, Prod.mk.injEq] at h'
    refine ⟨⟨k, withOpts s.db, out, by rw [hlog]; exact List.getLast?_concat, hop, hsz, hpc, hsol, hr, h'.1⟩, ?_⟩
    intro i
    rw [h'.2, hP, hop, h'.1]

/-- If the solve that is performed reports a negative reason, `PETSc.Error` is raised. -/
theorem C44_failure {s : GSt} (hs : s.log = []) {k : Ksp} {db : OptDB} {b' : Vec} {out : KspOut}
    (hcall : PCall.solve k db b' ∈
      (getGmresSolution P A n b pre maxsteps tol restart printrates reltol s).2.log)
    (hsol : P.solve k db b' = .ok out) (hr : out.reason < 0) :
    (getGmresSolution P A n b pre maxsteps tol restart printrates reltol s).1 = .error .petscError := by
  rcases run_cases P A n b pre maxsteps tol restart printrates reltol s with
    ⟨_, e, _⟩ | ⟨_, e, _⟩ | ⟨_, e, _⟩ | ⟨_, hdb, k', _, hlog, hop, hsz, hpc, _, hs'⟩
  · exact e
  · exact e
  · exact e
  rw [hlog, hs] at hcall
  have : k = k' ∧ db = withOpts s.db ∧ b' = b := by
    cases printrates <;> simpa using hcall
  obtain ⟨rfl, rfl, rfl⟩ := this
  rcases hs' with ⟨e, he, _⟩ | ⟨out', hsol', ⟨_, h'⟩ | ⟨hr', _⟩⟩
  · rw [hsol] at he; simp at he
  · exact h'
  · rw [hsol] at hsol'
    cases hsol'
    omega

/-- The only other exception is one raised inside the solve. -/
theorem C44_errors {s : GSt} {e : PyErr}
    (h : (getGmresSolution P A n b pre maxsteps tol restart printrates reltol s).1 = .error e) :
    e = .petscError ∨ ∃ k db, PCall.solve k db b ∈
      (getGmresSolution P A n b pre maxsteps tol restart printrates reltol s).2.log ∧
      P.solve k db b = .error e := by
  rcases run_cases P A n b pre maxsteps tol restart printrates reltol s with
    ⟨_, e', _⟩ | ⟨_, e', _⟩ | ⟨_, e', _⟩ | ⟨_, hdb, k', _, hlog, hop, hsz, hpc, _, hs'⟩
  · rw [h] at e'; left; simpa using e'
  · rw [h] at e'; left; simpa using e'
  · rw [h] at e'; left; simpa using e'
  rcases hs' with ⟨e', he, h'⟩ | ⟨out', hsol', ⟨_, h'⟩ | ⟨hr', h'⟩⟩
  · rw [h] at h'
    cases h'
    exact Or.inr ⟨k', _, by rw [hlog]; simp, he⟩
  · rw [h] at h'; left; simpa using h'
  · rw [h] at h'; simp at h'

/-! ### C45 -/

/-- The values reach PETSc as given, `0` included, and omitted ones are the documented defaults: the
first two calls into PETSc are the restart and the tolerances (only the restart if PETSc refuses it). -/
theorem C45_arguments (s : GSt) :
    let R := orDefault restart 1000
    let log := (getGmresSolution P A n b pre maxsteps tol restart printrates reltol s).2.log
    (R < 1 ∧ log = s.log ++ [.setRestart R]) ∨
    (1 ≤ R ∧ ∃ rest, log = s.log ++
      [.setRestart R, .setTolerances (orDefault reltol 1e-7) (orDefault tol 1e-12) maxsteps] ++ rest) := by
  intro R log
  rcases run_cases P A n b pre maxsteps tol restart printrates reltol s with
    ⟨h, _, hl, _⟩ | ⟨h, _, _, hl, _⟩ | ⟨h, _, _, _, hl⟩ | ⟨h, _, k', _, hl, _⟩
  · exact Or.inl ⟨h, hl⟩
  · exact Or.inr ⟨h, [], by simpa using hl⟩
  · exact Or.inr ⟨h, [], by simpa using hl⟩
  · exact Or.inr ⟨h, _, by simp only [log, hl, List.append_assoc]; rfl⟩

/-- The configuration in effect during the solve: each value is the option of the database if that is
set, and the argument otherwise. -/
theorem C45_effective {s : GSt} (hs : s.log = []) {k : Ksp} {db : OptDB} {b' : Vec}
    (hv : ValidTol (orDefault reltol 1e-7) (orDefault tol 1e-12) maxsteps)
    (hcall : PCall.solve k db b' ∈
      (getGmresSolution P A n b pre maxsteps tol restart printrates reltol s).2.log) :
    b' = b ∧ k.op = A ∧ k.size = n ∧ k.pc = some pre ∧
    Sel s.db "ksp_type" some "gmres" k.kspType ∧
    Sel s.db "pc_type" some "python" k.pcType ∧
    Sel s.db "ksp_max_it" P.parseInt maxsteps k.maxIt ∧
    Sel s.db "ksp_rtol" P.parseReal (orDefault reltol 1e-7) k.rtol ∧
    Sel s.db "ksp_atol" P.parseReal (orDefault tol 1e-12) k.atol ∧
    Sel s.db "ksp_gmres_restart" P.parseInt (orDefault restart 1000) k.restart ∧
    P.parseBool "true" = some k.mgs ∧ P.parseBool "true" = some k.prealloc ∧
    k.refine = "refine_ifneeded" ∧
    k.monitored = printrates := by
  rcases run_cases P A n b pre maxsteps tol restart printrates reltol s with
    ⟨_, _, hl, _⟩ | ⟨_, _, _, hl, _⟩ | ⟨_, _, _, _, hl⟩ | ⟨_, hdb, k', hk, hlog, hop, hsz, hpc, hm, hs'⟩
  · rw [hl, hs] at hcall; simp at hcall
  · rw [hl, hs] at hcall; simp at hcall
  · rw [hl, hs] at hcall; simp at hcall
  rw [hlog, hs] at hcall
  have : k = k' ∧ db = withOpts s.db ∧ b' = b := by
    cases printrates <;> simpa using hcall
  obtain ⟨rfl, rfl, rfl⟩ := this
  obtain ⟨k0, f, rfl⟩ := hk hv
  have tr : ∀ {α : Type} {key : String} {parse : String → Option α} {d v : α},
      (withOpts s.db key = s.db key) → Sel (withOpts s.db) key parse d v → Sel s.db key parse d v := by
    intro α key parse d v he h
    unfold Sel at h ⊢
    rwa [he] at h
  refine ⟨rfl, hop, hsz, hpc, tr rfl f.kspType, tr rfl f.pcType, tr rfl f.maxIt, tr rfl f.rtol,
    tr rfl f.atol, tr rfl f.restart, ?_, ?_, ?_, rfl⟩
  · rcases f.mgs with ⟨h, _⟩ | ⟨str, h, h'⟩
    · simp [withOpts] at h
    · have : str = "true" := by simpa [withOpts] using h.symm
      rw [← this]; exact h'
  · rcases f.prealloc with ⟨h, _⟩ | ⟨str, h, h'⟩
    · simp [withOpts] at h
    · have : str = "true" := by simpa [withOpts] using h.symm
      rw [← this]; exact h'
  · rcases f.refine with ⟨h, _⟩ | ⟨str, h, h'⟩
    · simp [withOpts] at h
    · have : str = "refine_ifneeded" := by simpa [withOpts] using h.symm
      rw [← this]; exact (Option.some.inj h').symm

/-- Whenever a solve is started, the monitor has been installed exactly if `printrates` is true. -/
theorem C45_monitor {s : GSt} (hs : s.log = []) {k : Ksp} {db : OptDB} {b' : Vec}
    (hcall : PCall.solve k db b' ∈
      (getGmresSolution P A n b pre maxsteps tol restart printrates reltol s).2.log) :
    (PCall.setMonitor ∈
      (getGmresSolution P A n b pre maxsteps tol restart printrates reltol s).2.log ↔ printrates = true) := by
  rcases run_cases P A n b pre maxsteps tol restart printrates reltol s with
    ⟨_, _, hl, _⟩ | ⟨_, _, _, hl, _⟩ | ⟨_, _, _, _, hl⟩ | ⟨_, hdb, k', hk, hlog, hop, hsz, hpc, hm, hs'⟩
  · rw [hl, hs] at hcall; simp at hcall
  · rw [hl, hs] at hcall; simp at hcall
  · rw [hl, hs] at hcall; simp at hcall
  rw [hlog, hs]
  cases printrates <;> simp

/-- The database after a call with values PETSc accepts, whatever the outcome of the solve: the three
options are set, and every other option is as before. -/
theorem C45_database (s : GSt) (hR : 1 ≤ orDefault restart 1000)
    (hv : ValidTol (orDefault reltol 1e-7) (orDefault tol 1e-12) maxsteps) :
    let db' := (getGmresSolution P A n b pre maxsteps tol restart printrates reltol s).2.db
    db' "ksp_gmres_cgs_refinement_type" = some "refine_ifneeded" ∧
    db' "ksp_gmres_modifiedgramschmidt" = some "true" ∧
    db' "ksp_gmres_preallocate" = some "true" ∧
    ∀ name, name ≠ "ksp_gmres_cgs_refinement_type" → name ≠ "ksp_gmres_modifiedgramschmidt" →
      name ≠ "ksp_gmres_preallocate" → db' name = s.db name := by
  intro db'
  have : db' = withOpts s.db := by
    rcases run_cases P A n b pre maxsteps tol restart printrates reltol s with
      ⟨h, _⟩ | ⟨_, _, h, _⟩ | ⟨_, _, h, _⟩ | ⟨_, h, _⟩
    · omega
    · exact absurd hv h
    · exact h
    · exact h
  rw [this]
  refine ⟨rfl, by simp [withOpts], by simp [withOpts], ?_⟩
  intro name h1 h2 h3
  simp [withOpts, h1, h2, h3]

/-- The effect on the database persists: once set, the three options are there for every later solver,
whatever calls of this function (successful or not) come in between. -/
theorem C45_persists (calls : List (GSt → GSt))
    (hcalls : ∀ f ∈ calls, ∃ (P : Petsc) (A : Vec → Vec) (n : ℕ) (b : Vec) (pre : Vec → Vec) (m : ℤ)
      (tol : Option ℝ) (re : Option ℤ) (pr : Bool) (rt : Option ℝ),
      f = fun s => (getGmresSolution P A n b pre m tol re pr rt s).2)
    (s : GSt) (name v : String)
    (hname : (name, v) ∈ [("ksp_gmres_cgs_refinement_type", "refine_ifneeded"),
      ("ksp_gmres_modifiedgramschmidt", "true"), ("ksp_gmres_preallocate", "true")])
    (hset : s.db name = some v) :
    (calls.foldl (fun s f => f s) s).db name = some v := by
  induction calls generalizing s with
  | nil => exact hset
  | cons f l ih =>
    refine ih (fun g hg => hcalls g (List.mem_cons_of_mem _ hg)) (f s) ?_
    obtain ⟨P, A, n, b, pre, m, tol, re, pr, rt, rfl⟩ := hcalls f List.mem_cons_self
    have hw : withOpts s.db name = some v := by
      simp only [List.mem_cons, Prod.mk.injEq, List.not_mem_nil, or_false] at hname
      rcases hname with ⟨rfl, rfl⟩ | ⟨rfl, rfl⟩ | ⟨rfl, rfl⟩ <;> simp [withOpts]
    rcases run_cases P A n b pre m tol re pr rt s with
      ⟨_, _, _, h⟩ | ⟨_, _, _, _, h⟩ | ⟨_, _, h, _⟩ | ⟨_, h, _⟩
    · simp only [h, hset]
    · simp only [h, hset]
    · simp only [h, hw]
    · simp only [h, hw]

/-- With arguments PETSc accepts and without overriding options, the call returns exactly when the
solve, run with these arguments, reports a non-negative reason. -/
theorem C44_iff {s : GSt} (hR : 1 ≤ orDefault restart 1000)
    (hv : ValidTol (orDefault reltol 1e-7) (orDefault tol 1e-12) maxsteps) (hno : NoOverride s.db)
    (hb : P.parseBool "true" = some true) :
    ∃ k db, k.op = A ∧ k.size = n ∧ k.pc = some pre ∧ k.kspType = "gmres" ∧ k.pcType = "python" ∧
      k.maxIt = maxsteps ∧ k.rtol = orDefault reltol 1e-7 ∧ k.atol = orDefault tol 1e-12 ∧
      k.restart = orDefault restart 1000 ∧ k.mgs = true ∧ k.monitored = printrates ∧
      ((∃ x r s', getGmresSolution P A n b pre maxsteps tol restart printrates reltol s = (.ok (x, r), s'))
        ↔ ∃ out, P.solve k db b = .ok out ∧ 0 ≤ out.reason) := by
  have hw : ∀ name ∈ ["ksp_type", "pc_type", "ksp_max_it", "ksp_rtol", "ksp_atol", "ksp_gmres_restart"],
      withOpts s.db name = none := by
    intro name hn
    rw [← hno name hn]
    simp only [List.mem_cons, List.not_mem_nil, or_false] at hn
    rcases hn with rfl | rfl | rfl | rfl | rfl | rfl <;> rfl
  rcases run_cases P A n b pre maxsteps tol restart printrates reltol s with
      ⟨h, _⟩ | ⟨_, _, h, _⟩ | ⟨_, he, h, bad, hl⟩ | ⟨_, h, k, hk, hlog, hop, hsz, hpc, hm, hs'⟩
  · omega
  · exact absurd hv h
  · exfalso
    rcases bad with ⟨key, hk, str, hs, _⟩ | ⟨key, hk, str, hs, _⟩ | ⟨key, hk, str, hs, hp⟩
    · rw [hw key (by simp at hk ⊢; tauto)] at hs; simp at hs
    · rw [hw key (by simp at hk ⊢; tauto)] at hs; simp at hs
    · have : str = "true" := by
        simp only [List.mem_cons, List.not_mem_nil, or_false] at hk
        rcases hk with rfl | rfl <;> simpa [withOpts] using hs.symm
      rw [this, hb] at hp; simp at hp
  · have hmem : PCall.solve k (withOpts s.db) b ∈
        (getGmresSolution P A n b pre maxsteps tol restart printrates reltol s).2.log := by
      rw [hlog]; simp
    obtain ⟨k0, f, hk0⟩ := hk hv
    have sel : ∀ {α : Type} {key : String} {parse : String → Option α} {d v : α},
        key ∈ ["ksp_type", "pc_type", "ksp_max_it", "ksp_rtol", "ksp_atol", "ksp_gmres_restart"] →
        Sel (withOpts s.db) key parse d v → v = d := by
      intro α key parse d v hkey h
      rcases h with ⟨_, h⟩ | ⟨str, h, _⟩
      · exact h
      · rw [hw key hkey] at h; simp at h
    refine ⟨k, withOpts s.db, hop, hsz, hpc, ?_, ?_, ?_, ?_, ?_, ?_, ?_, hm, ?_⟩
    · rw [hk0]; exact sel (by simp) f.kspType
    · rw [hk0]; exact sel (by simp) f.pcType
    · rw [hk0]; exact sel (by simp) f.maxIt
    · rw [hk0]; exact sel (by simp) f.rtol
    · rw [hk0]; exact sel (by simp) f.atol
    · rw [hk0]; exact sel (by simp) f.restart
    · rw [hk0]
      rcases f.mgs with ⟨h, _⟩ | ⟨str, h, h'⟩
      · simp [withOpts] at h
      · have : str = "true" := by simpa [withOpts] using h.symm
        rw [this, hb] at h'
        exact (Option.some.inj h').symm
    · constructor
      · rintro ⟨x, r, s', hrun⟩
        rw [hrun] at hs'
        rcases hs' with ⟨e, _, h'⟩ | ⟨out, hsol, ⟨_, h'⟩ | ⟨hr, _⟩⟩
        · simp at h'
        · simp at h'
        · exact ⟨out, hsol, hr⟩
      · rintro ⟨out, hsol, hr⟩
        rcases hs' with ⟨e, he, _⟩ | ⟨out', hsol', ⟨hr', _⟩ | ⟨_, h'⟩⟩
        · rw [hsol] at he; simp at he
        · rw [hsol] at hsol'; cases hsol'; omega
        · exact ⟨_, _, _, Prod.ext h' rfl⟩

/-- Under the contract of the convergence test, and if the reasons for success are the tolerances, the
solution that is returned satisfies the tolerances passed in (or their defaults). -/
theorem C44_tolerance (hP : TestsConvergence P)
    (hreason : ∀ k db out, P.solve k db b = .ok out → 0 ≤ out.reason → out.reason = 2 ∨ out.reason = 3)
    {s s' : GSt} {x r : Vec}
    (hv : ValidTol (orDefault reltol 1e-7) (orDefault tol 1e-12) maxsteps) (hno : NoOverride s.db)
    (h : getGmresSolution P A n b pre maxsteps tol restart printrates reltol s = (.ok (x, r), s')) :
    vnorm n (pre fun i => b i - A x i)
      ≤ max (orDefault reltol 1e-7 * vnorm n (pre b)) (orDefault tol 1e-12) := by
  have hw : ∀ name ∈ ["ksp_type", "pc_type", "ksp_max_it", "ksp_rtol", "ksp_atol", "ksp_gmres_restart"],
      withOpts s.db name = none := by
    intro name hn
    rw [← hno name hn]
    simp only [List.mem_cons, List.not_mem_nil, or_false] at hn
    rcases hn with rfl | rfl | rfl | rfl | rfl | rfl <;> rfl
  have sel : ∀ {α : Type} {key : String} {parse : String → Option α} {d v : α},
      key ∈ ["ksp_type", "pc_type", "ksp_max_it", "ksp_rtol", "ksp_atol", "ksp_gmres_restart"] →
      Sel (withOpts s.db) key parse d v → v = d := by
    intro α key parse d v hkey h
    rcases h with ⟨_, h⟩ | ⟨str, h, _⟩
    · exact h
    · rw [hw key hkey] at h; simp at h
  have key := run_cases P A n b pre maxsteps tol restart printrates reltol s
  simp only [h] at key
  rcases key with ⟨_, e, _⟩ | ⟨_, e, _⟩ | ⟨_, e, _⟩ | ⟨_, hdb, k, hk, hlog, hop, hsz, hpc, _, hs⟩
  · simp at e
  · simp at e
  · simp at e
  rcases hs with ⟨e, _, h'⟩ | ⟨out, hsol, ⟨_, h'⟩ | ⟨hr, h'⟩⟩
  · simp at h'
  · simp at h'
  simp only [Except.ok.injEq, Prod.mk.injEq] at h'
  obtain ⟨k0, f, hk0⟩ := hk hv
  have hpt : k.pcType = "python" := by rw [hk0]; exact sel (by simp) f.pcType
  have hrt : k.rtol = orDefault reltol 1e-7 := by rw [hk0]; exact sel (by simp) f.rtol
  have hat : k.atol = orDefault tol 1e-12 := by rw [hk0]; exact sel (by simp) f.atol
  rw [h'.1]
  rcases hreason k _ out hsol hr with h2 | h3
  · have := hP.rtol k _ b out pre hsol h2 hpt hpc
    rw [hop, hsz, hrt] at this
    exact le_max_of_le_left this
  · have := hP.atol k _ b out pre hsol h3 hpt hpc
    rw [hop, hsz, hat] at this
    exact le_max_of_le_right this

/-! ### The hypotheses are met by a concrete solver -/

namespace Example

/-- A PETSc that solves `2 x = b` (reason 2), and reports divergence (reason -3) if `max_it` is zero. -/
noncomputable def petsc : Petsc where
  parseReal _ := some 0.5
  parseInt _ := some 7
  parseBool str := if str = "true" then some true else none
  solve k _ b := .ok { reason := if k.maxIt = 0 then -3 else 2, its := 1, x := fun i => b i / 2 }
  residual k _ b out := fun i => b i - k.op out.x i

noncomputable def dbl : Vec → Vec := fun v i => 2 * v i
def s0 : GSt := { db := fun _ => none, ksp := { op := id, size := 0 } }

theorem petsc_builds : BuildsResidual petsc := fun _ _ _ _ _ => rfl

example : NoOverride s0.db := fun _ _ => rfl
example : petsc.parseBool "true" = some true := by simp [petsc]
theorem valid : ValidTol (orDefault none 1e-7) (orDefault (some 1e-7) 1e-12) 100000 := by
  unfold ValidTol orDefault; norm_num

/-- The call of the scripts succeeds. -/
theorem returns (b : Vec) : ∃ x r s', getGmresSolution petsc dbl 3 b id 100000 (some 1e-7) none true none s0
    = (.ok (x, r), s') := by
  obtain ⟨k, db, _, _, _, _, _, hm, _, _, _, _, _, h⟩ := C44_iff petsc dbl 3 b id 100000 (some 1e-7) none true none
    (s := s0) (by simp [orDefault]) valid (fun _ _ => rfl) (by simp [petsc])
  refine h.2 ⟨_, rfl, ?_⟩
  simp [hm]

/-- … and its residual is zero, as C44 says. -/
example (b : Vec) : ∃ x r s', getGmresSolution petsc dbl 3 b id 100000 (some 1e-7) none true none s0
    = (.ok (x, r), s') ∧ ∀ i, r i = b i - dbl x i := by
  obtain ⟨x, r, s', h⟩ := returns b
  exact ⟨x, r, s', h, (C44_success petsc dbl 3 b id 100000 (some 1e-7) none true none petsc_builds h).2⟩

/-- An explicit `maxsteps=0` reaches the solver, which then reports divergence: `PETSc.Error`. -/
example (b : Vec) : ¬ ∃ x r s', getGmresSolution petsc dbl 3 b id 0 none none true none s0
    = (.ok (x, r), s') := by
  obtain ⟨k, db, _, _, _, _, _, hm, _, _, _, _, _, h⟩ := C44_iff petsc dbl 3 b id 0 none none true none
    (s := s0) (by simp [orDefault]) (by unfold ValidTol orDefault; norm_num) (fun _ _ => rfl) (by simp [petsc])
  rw [h]
  rintro ⟨out, ho, hr⟩
  simp only [petsc, hm, if_true, Except.ok.injEq] at ho
  rw [← ho] at hr
  norm_num at hr

/-- A `restart` of 0 is handed on and refused by PETSc. -/
example (b : Vec) : (getGmresSolution petsc dbl 3 b id 100 none (some 0) true none s0).2.log
    = [.setRestart 0] := by
  rcases C45_arguments petsc dbl 3 b id 100 none (some 0) true none s0 with ⟨_, h⟩ | ⟨h, _⟩
  · simpa [s0, orDefault] using h
  · simp [orDefault] at h

open Classical in
/-- A PETSc whose reason 2 is justified: it reports success only for the operator it solves. -/
noncomputable def petsc2 : Petsc := { petsc with
  solve := fun k _ b => .ok { reason := if k.op = dbl ∧ 0 ≤ k.rtol ∧ k.pc = some id then 2 else -3,
                              its := 1, x := fun i => b i / 2 } }

theorem petsc_tests : TestsConvergence petsc2 := by
  constructor
  · intro k db b out p h h2 _ hp
    simp only [petsc2, Except.ok.injEq] at h
    subst h
    simp only [ite_eq_left_iff] at h2
    have h2' : k.op = dbl ∧ 0 ≤ k.rtol ∧ k.pc = some id := by
      by_contra hc
      exact absurd (h2 hc) (by norm_num)
    obtain ⟨ho, hr, hpc⟩ := h2'
    rw [hp] at hpc
    cases hpc
    have : vnorm k.size (id fun i => b i - k.op (fun i => b i / 2) i) = 0 := by
      rw [ho]
      simp [vnorm, dbl, mul_div_cancel₀]
    rw [this]
    exact mul_nonneg hr (Real.sqrt_nonneg _)
  · intro k db b out p h h3
    simp only [petsc2, Except.ok.injEq] at h
    subst h
    simp only at h3
    split_ifs at h3 <;> norm_num at h3

/-- All hypotheses of `C44_tolerance` together. -/
example (b : Vec) : ∃ x, vnorm 3 (id fun i => b i - dbl x i)
    ≤ max (orDefault none 1e-7 * vnorm 3 (id b)) (orDefault (some 1e-7) 1e-12) := by
  obtain ⟨k, db, ho, _, hp, _, _, _, hr, _, _, _, _, h⟩ := C44_iff petsc2 dbl 3 b id 100000 (some 1e-7) none
    true none (s := s0) (by simp [orDefault]) valid (fun _ _ => rfl) (by simp [petsc2, petsc])
  obtain ⟨x, r, s', hrun⟩ := h.2 ⟨_, rfl, by
    simp only [ho, hp, hr, true_and, and_true]
    rw [if_pos (by unfold orDefault; norm_num)]
    norm_num⟩
  refine ⟨x, C44_tolerance petsc2 dbl 3 b id 100000 (some 1e-7) none true none petsc_tests ?_ valid
    (fun _ _ => rfl) hrun⟩
  intro k db out h hr
  simp only [petsc2, Except.ok.injEq] at h
  subst h
  simp only at hr ⊢
  split_ifs at hr ⊢ with hc
  · exact Or.inl rfl
  · norm_num at hr

/-- The user's own setting of an overwritten option does not survive the call. -/
example (b : Vec) : (getGmresSolution petsc dbl 3 b id 100 none none true none
    { s0 with db := OptDB.set s0.db "ksp_gmres_modifiedgramschmidt" "false" }).2.db
      "ksp_gmres_modifiedgramschmidt" = some "true" :=
  (C45_database petsc dbl 3 b id 100 none none true none _ (by simp [orDefault])
    (by unfold ValidTol orDefault; norm_num)).2.1

end Example
end Dxss.Gmres
