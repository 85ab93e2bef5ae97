import Verif.Lemmas.ParallelPre
import Verif.Props.Parallel
import Verif.Props.Precond

/-!
# C83: the time-marching preconditioner on several MPI ranks
-/

namespace Dxss.Par
open Finset
variable {V : Type} [AddCommGroup V] [Module ℝ V]

/-- A rank without ghost dofs in the three spaces used. -/
def PreRank.NoGhosts (R : PreRank) : Prop :=
  R.full.size = R.fullOwned ∧ R.slab.size = R.slabOwned ∧ R.bnd.size = R.bndOwned

/-- Full statement: the preconditioner returns on every rank.  False, see `C83_violated`. -/
def C83_statement : Prop := ∀ (R : PreRank) (m : Fin 4 → ℕ), R.Ok m → 1 ≤ R.N → ∀ b rhs x : Arr,
  b.length = R.fullOwned → rhs.length = R.slabOwned → x.length = R.fullOwned →
  ∃ y, R.preTimeMarchingImproved b rhs x = .ok y ∧ y.length = R.fullOwned

variable {R : PreRank} {m : Fin 4 → ℕ} {b rhs x : Arr}

/-- What the first `k` slabs compute, with vectors as total functions: `r n` is the right-hand side of slab `n`,
`t n` the trace at its end. -/
structure Marched (R : PreRank) (m : Fin 4 → ℕ) (b : Arr) (k : ℕ) (load : ℕ → Vec) (out : Vec) (r t : ℕ → Arr) : Prop where
  first : load 0 = 0
  rhs : ∀ n < k, abs (r n) = load n + pull m R.full R.slab (R.slabIx n) (abs b)
  top : ∀ n < k, abs (t n) = pull m R.slab R.bnd R.topIx (abs (R.solve n (r n)))
  carry : ∀ n < k, load (n + 1) = push m R.slab R.bnd botIx (abs (R.bndMult (t n)))
  out : ∀ n < k, ∀ c l s, l < R.slab.nsub c → s < m c →
    out (R.full.dof c (R.slabIx n c l) s) = abs (R.solve n (r n)) (R.slab.dof c l s)

theorem slabIx_ne (h : R.Ok m) {k n : ℕ} (hk : k < R.N) (hn : n < R.N) (hne : n ≠ k) {c c' : Fin 4} {l l' s s' : ℕ}
    (hl : l < R.slab.nsub c) (hs : s < m c) (hl' : l' < R.slab.nsub c') (hs' : s' < m c') :
    R.full.dof c' (R.slabIx k c' l') s' ≠ R.full.dof c (R.slabIx n c l) s := by
  intro e
  obtain ⟨rfl, h3, rfl⟩ := h.full.inj _ _ _ _ _ _ ((h.embSlab hk).range _ _ hl') hs' ((h.embSlab hn).range _ _ hl) hs e
  rw [h.slabN, slabN_eq] at hl hl'
  unfold Rank.slabIx at h3
  rcases lt_or_gt_of_ne hne with h | h
  · nlinarith [Nat.mul_le_mul_right (R.order c' + 1) h]
  · nlinarith [Nat.mul_le_mul_right (R.order c' + 1) h]

theorem pre_loop_good (h : R.Ok m) (hb : b.length = R.fullOwned) (s : PreSt) (h0 : abs s.rhs = 0)
    (hr : s.rhs.length = R.slabOwned) (hx : s.out.length = R.fullOwned) (k : ℕ) (hk : k ≤ R.N) :
    Good (∀ n < k, R.Fits n) ((List.range k).foldlM (R.preBody b) s) fun s' => s'.rhs.length = R.slabOwned ∧
      s'.out.length = R.fullOwned ∧ ∃ load r t, Marched R m b k load (abs s'.out) r t ∧ load k = abs s'.rhs := by
  induction k with
  | zero =>
    exact (Good.ok ⟨hr, hx, fun _ => 0, fun _ => [], fun _ => [], ⟨rfl, by simp, by simp, by simp, by simp⟩, h0.symm⟩).mono
      (by simp) fun _ h => h
  | succ k ih =>
    rw [List.range_succ, List.foldlM_append]
    refine ((ih (by omega)).bind (P' := R.Fits k) fun s' hs' => ?_).mono
      ⟨fun h n hn => by
        rcases Nat.lt_succ_iff_lt_or_eq.1 hn with hn | rfl
        · exact h.1 n hn
        · exact h.2, fun h => ⟨fun n hn => h n (by omega), h k (by omega)⟩⟩ fun _ h => h
    obtain ⟨hr', hx', load, r, t, hM, hl⟩ := hs'
    rw [List.foldlM_cons]
    refine ((pre_body_good h (by omega) b hb s' hr' hx').bind (P' := True) fun s'' hs'' => ?_).mono (by simp) fun _ h => h
    obtain ⟨hr'', hx'', r', t', e1, e2, e3, e4, e5⟩ := hs''
    refine Good.ok ⟨hr'', hx'', Function.update load (k + 1) (abs s''.rhs), Function.update r k r', Function.update t k t',
      ⟨by rw [Function.update_of_ne (by omega)]; exact hM.first, fun n hn => ?_, fun n hn => ?_, fun n hn => ?_,
        fun n hn c l s hl' hs => ?_⟩, by simp⟩
    · rw [Function.update_of_ne (by omega : n ≠ k + 1)]
      by_cases hnk : n = k
      · subst hnk; rw [Function.update_self, e1, hl]
      · rw [Function.update_of_ne hnk]; exact hM.rhs n (by omega)
    · by_cases hnk : n = k
      · subst hnk; rw [Function.update_self, Function.update_self, e2]
      · rw [Function.update_of_ne hnk, Function.update_of_ne hnk]; exact hM.top n (by omega)
    · by_cases hnk : n = k
      · subst hnk; rw [Function.update_self, Function.update_self, e3]
      · rw [Function.update_of_ne (by omega : n + 1 ≠ k + 1), Function.update_of_ne hnk]; exact hM.carry n (by omega)
    · by_cases hnk : n = k
      · subst hnk; rw [Function.update_self]; exact e4 c l s hl' hs
      · rw [Function.update_of_ne hnk, e5 _ fun c' l' s' h1 h2 => slabIx_ne h (by omega) (by omega) hnk hl' hs h1 h2]
        exact hM.out n (by omega) c l s hl' hs

theorem pre_good (h : R.Ok m) (hN : 1 ≤ R.N) (hb : b.length = R.fullOwned) (hr : rhs.length = R.slabOwned)
    (hx : x.length = R.fullOwned) :
    Good R.NoGhosts (R.preTimeMarchingImproved b rhs x) fun y => y.length = R.fullOwned ∧
      ∃ load r t, Marched R m b R.N load (abs y) r t := by
  unfold PreRank.preTimeMarchingImproved
  refine ((pre_loop_good h hb ⟨List.replicate rhs.length 0, x⟩ (abs_replicate _) (by simpa using hr) hx R.N le_rfl).bind
    (P' := True) fun s hs => ?_).mono ((and_iff_left trivial).trans (h.fits_all hN)) fun _ h => h
  obtain ⟨-, hl, load, r, t, hM, -⟩ := hs
  exact Good.ok ⟨hl, load, r, t, hM⟩

/-- C83: on a rank with ghost dofs in the space-time space (or in one of the two others) the preconditioner raises
`IndexError`, whatever the vectors contain. -/
theorem C83_raises (h : R.Ok m) (hN : 1 ≤ R.N) (hb : b.length = R.fullOwned) (hr : rhs.length = R.slabOwned)
    (hx : x.length = R.fullOwned)
    (hg : R.fullOwned < R.full.size ∨ R.slabOwned < R.slab.size ∨ R.bndOwned < R.bnd.size) :
    R.preTimeMarchingImproved b rhs x = .error .indexError := by
  rcases pre_good h hN hb hr hx with ⟨⟨h1, h2, h3⟩, -⟩ | ⟨-, e⟩
  · omega
  · exact e

/-- C83: on a rank without ghost dofs it returns. -/
theorem C83_returns_partial (h : R.Ok m) (hN : 1 ≤ R.N) (hb : b.length = R.fullOwned) (hr : rhs.length = R.slabOwned)
    (hx : x.length = R.fullOwned) (hg : R.NoGhosts) :
    ∃ y, R.preTimeMarchingImproved b rhs x = .ok y ∧ y.length = R.fullOwned := by
  rcases pre_good h hN hb hr hx with ⟨-, y, e, hl, -⟩ | ⟨hp, -⟩
  · exact ⟨y, e, hl⟩
  · exact absurd hg hp

theorem preOfCfg_ok {C : Cfg V} (h : C.Ok) (gF gS : Vec → Vec) : (preOfCfg C gF gS).Ok C.fe.m :=
  { ofCfg_ok h with
    bnd := h.bnd
    bndN := h.bndN
    bndLe := le_rfl
    bndMult := fun a => by simp [preOfCfg]
    solveFirst := fun a => by simp [preOfCfg, ofCfg]
    solveSlab := fun a => by simp [preOfCfg, ofCfg] }

/-- C83, one process: run on arrays with bounds, the preconditioner never raises, and its result is entry for entry that of the
sequential model (in which vectors are total functions). -/
theorem C83_sequential {C : Cfg V} (hC : C.Ok) (hN : 1 ≤ C.D.N) (hfw : C.D.jumpsFw = false) {w : World V} {gF gS : Vec → Vec}
    (hw : PreReady C w.obj (fun v => .ok (gF v)) fun v => .ok (gS v)) {vb vx : Ref} (h1 : vb ∉ preScratch)
    (h2 : vx ∉ preScratch) (hb : b.length = C.full.size) (hr : rhs.length = C.slab.size) (hx : x.length = C.full.size)
    (hv : ∀ d < C.full.size, w.heap vb d = b.getD d 0) :
    ∃ y w', (preOfCfg C gF gS).preTimeMarchingImproved b rhs x = .ok y ∧ y.length = C.full.size ∧
      preTimeMarchingImproved C vb vx w = (.ok (), w') ∧ ∀ d < C.full.size, y.getD d 0 = w'.heap vx d := by
  set R := preOfCfg C gF gS with hR
  have hok : R.Ok C.fe.m := preOfCfg_ok hC gF gS
  have hix : ∀ n, R.slabIx n = slabIx C.D n := fun n => by
    funext c l; simp only [Rank.slabIx, slabIx]; rw [hR]; change n * ((ofCfg C).order c + 1) + l = _; rw [ofCfg_order]
  rcases pre_good hok hN hb hr hx with ⟨-, y, e, hl, load, r, t, hM⟩ | ⟨hp, -⟩
  swap
  · exact absurd ⟨rfl, rfl, rfl⟩ hp
  set mar := march C 0 (carry C) (fun v => .ok (gF v)) (fun v => .ok (gS v)) (w.heap vb) with hmar
  -- the slab solutions of the array run are those of the march
  have hload : ∀ n, n ≤ C.D.N → ∀ k, n = k + 1 → ∀ u, (∀ d < C.slab.size, abs (R.solve k (r k)) d = u d) →
      load n = carry C u := by
    rintro _ hn k rfl u hu
    rw [hM.carry k hn, carry]
    refine push_congr (emb_bot hC) fun e he => ?_
    change abs ((List.range C.bnd.size).map _) e = _
    rw [abs_map_range _ _ he]
    change (bndMatOf C).mult (abs (t k)) e = _
    rw [hM.top k hn]
    exact congrFun (congrArg _ (pull_congr (emb_top hC) hu)) e
  have hrhs : ∀ n < C.D.N, abs (r n) = load n + pullS C n (w.heap vb) := fun n hn => by
    rw [hM.rhs n hn, hix]
    congr 1
    exact pull_congr (emb_slab hC hn) fun d hd => (hv d hd).symm
  have hsol : ∀ n < C.D.N, ∃ u, mar n = .ok u ∧ ∀ d < C.slab.size, abs (R.solve n (r n)) d = u d := by
    intro n
    induction n with
    | zero =>
      intro hn
      refine ⟨_, rfl, fun d hd => ?_⟩
      change abs ((List.range C.slab.size).map (gF (abs (r 0)))) d = _
      rw [abs_map_range _ _ hd, hrhs 0 hn, hM.first]
    | succ k ih =>
      intro hn
      obtain ⟨u, hu, hu'⟩ := ih (by omega)
      refine ⟨gS (carry C u + pullS C (k + 1) (w.heap vb)), ?_, fun d hd => ?_⟩
      · rw [hmar]
        simp only [march]
        rw [← hmar, hu]
      · change abs ((List.range C.slab.size).map (gS (abs (r (k + 1))))) d = _
        rw [abs_map_range _ _ hd, hrhs _ hn, hload (k + 1) hn.le k rfl u hu']
  obtain ⟨-, -, -, -, hout⟩ := preImproved_run hC hw h1 h2 hfw
  rcases hrun : preTimeMarchingImproved C vb vx w with ⟨e' | u', w'⟩
  · rw [hrun] at hout
    obtain ⟨n, hn, hn', -⟩ := hout
    obtain ⟨u, hu, -⟩ := hsol n hn
    rw [← hmar, hu] at hn'
    cases hn'
  rw [hrun] at hout
  refine ⟨y, w', e, hl, rfl, fun d hd => ?_⟩
  obtain ⟨c, i, s, hi, hs, rfl⟩ := hC.full.surj d hd
  have hi0 := hi
  rw [hC.fullN, fullSizes_eq] at hi
  have hi' : i / (C.D.timeOrder c + 1) < C.D.N := Nat.div_lt_of_lt_mul hi
  have hl' : i % (C.D.timeOrder c + 1) < C.slab.nsub c := by
    rw [hC.slabN, slabSizes_eq]; exact Nat.mod_lt _ (Nat.succ_pos _)
  have hidx : slabIx C.D (i / (C.D.timeOrder c + 1)) c (i % (C.D.timeOrder c + 1)) = i := by
    rw [slabIx, mul_comm, Nat.div_add_mod]
  obtain ⟨u, hu, hu'⟩ := hsol _ hi'
  obtain ⟨u₂, hu₂, hB⟩ := hout.1 _ hi'
  rw [← hmar, hu] at hu₂
  cases hu₂
  have h3 := hM.out _ hi' c _ s hl' hs
  rw [hix, hidx] at h3
  have h4 := hB c _ s hl' hs
  rw [hidx] at h4
  change abs y _ = _
  rw [h4]
  exact h3.trans (hu' _ (hC.slab.lt _ _ _ hl' hs))

end Dxss.Par

namespace Dxss.Example
open Par

/-- The rank `ghosted` of C74 with some solvers. -/
noncomputable def preGhosted : PreRank where
  toRank := ghosted
  bnd := cfgNodes.bnd
  bndOwned := cfgNodes.bnd.size - 1
  bndMult := fun _ => List.replicate (cfgNodes.bnd.size - 1) 0
  solveFirst := fun _ => List.replicate cfgNodes.slab.size 0
  solveSlab := fun _ => List.replicate cfgNodes.slab.size 0

theorem preGhosted_ok : preGhosted.Ok cfgNodes.fe.m :=
  { ghosted_ok with
    bnd := cfgNodes_ok.bnd
    bndN := cfgNodes_ok.bndN
    bndLe := Nat.sub_le _ _
    bndMult := fun _ => List.length_replicate
    solveFirst := fun _ => List.length_replicate
    solveSlab := fun _ => List.length_replicate }

/-- C83 is false. -/
theorem C83_violated : ¬ C83_statement := by
  intro h
  obtain ⟨y, e, -⟩ := h preGhosted _ preGhosted_ok le_rfl (List.replicate (cfgNodes.full.size - 1) 0)
    (List.replicate (cfgNodes.slab.size - 1) 0) (List.replicate (cfgNodes.full.size - 1) 0) List.length_replicate
    List.length_replicate List.length_replicate
  have e' := C83_raises preGhosted_ok le_rfl (b := List.replicate (cfgNodes.full.size - 1) 0)
    (rhs := List.replicate (cfgNodes.slab.size - 1) 0) (x := List.replicate (cfgNodes.full.size - 1) 0)
    List.length_replicate List.length_replicate List.length_replicate (.inl (by decide))
  rw [e] at e'
  cases e'

/-- One process, two slabs. -/
example (b : Arr) (hb : b.length = (cfg false true).full.size) :=
  C83_sequential (b := b) (rhs := List.replicate (cfg false true).slab.size 1)
    (x := List.replicate (cfg false true).full.size 1) (cfg_ok false true) (by decide) rfl
    (preWorld_ready (cfg false true) scaleSol scaleSol fun _ d => b.getD d 0) (user_pre 0) (user_pre 1) hb
    List.length_replicate List.length_replicate fun _ _ => rfl

end Dxss.Example
