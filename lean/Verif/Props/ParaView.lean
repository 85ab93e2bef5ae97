import Verif.Model.ParaView
import Verif.Props.Errors
import Verif.Props.Rhs
import Verif.Props.Drivers

/-!
# Property C72: the files written by `plot_para_view`
-/

namespace Dxss
open Finset
set_option linter.unusedSectionVars false
variable {V : Type} [AddCommGroup V] [Module ℝ V] {C : Cfg V}

/-- Evaluation at the nodes of the primal scalar space: `ev s` is the value at node `s`, and the
basis is the nodal one. -/
structure FE.Nodal (fe : FE V) (ev : ℕ → V →ₗ[ℝ] ℝ) : Prop where
  delta : ∀ s < fe.mP, ∀ s' < fe.mP, ev s (fe.bP s') = if s' = s then 1 else 0

/-- Interpolation takes the values at the nodes. -/
def Evaluates (fe : FE V) (ev : ℕ → V →ₗ[ℝ] ℝ) (interp : V → List ℝ) : Prop :=
  ∀ u, interp u = (List.range fe.mP).map fun s => ev s u

/-- Nodal values of a function in the space are its coefficients. -/
theorem FE.Nodal.nodeAt {ev : ℕ → V →ₗ[ℝ] ℝ} {fe : FE V} (h : fe.Nodal ev) (v : Vec) (idx : List ℕ) {s : ℕ} (hs : s < fe.mP) :
    ev s (nodeAt fe v idx) = v (idx.getD s 0) := by
  rw [Dxss.nodeAt, nodeFun, map_sum, sum_eq_single s]
  · simp [h.delta s hs s hs]
  · intro s' hs' hne
    simp [h.delta s hs s' (mem_range.1 hs'), hne]
  · intro h'; exact absurd (mem_range.2 hs) h'

/-- The coefficient functions of the discrete field. -/
theorem field_top (hC : C.Ok) (hN : 1 ≤ C.D.N) (v : Vec) {c : Fin 4} (hc : c = 0 ∨ c = 1) :
    C.full.field C.fe v c (((C.D.N - 1 : ℕ) : ℤ) * (C.D.q + 1) + C.D.q)
      = nodeAt C.fe v (C.full.collapse c ((C.D.q + 1) * C.D.N - 1)) := by
  have e : (((C.D.N - 1 : ℕ) : ℤ) * (C.D.q + 1) + C.D.q) = (((C.D.q + 1) * C.D.N - 1 : ℕ) : ℤ) := by
    rw [mul_comm (C.D.q + 1), top_index hN]; push_cast; ring
  have hp : 0 < (C.D.q + 1) * C.D.N := Nat.mul_pos (Nat.succ_pos _) hN
  rw [e]
  have hn : C.full.nsub c = (C.D.q + 1) * C.D.N := by
    rw [hC.fullN]; rcases hc with rfl | rfl <;> rfl
  rw [FSpace.field, if_pos ⟨by omega, by rw [hn]; omega⟩, nodeAt, nodeFun, Int.toNat_natCast]
  rcases hc with rfl | rfl <;> rfl

/-- At the end time the discrete function of component 0 or 1 is the top coefficient function of the
last slab. -/
theorem val_end (hC : C.Ok) (hM : C.Meas) (v : Vec) {c : Fin 4} (hc : c = 0 ∨ c = 1) :
    Spec.val C.D.q C.D.dt (C.D.N - 1) (C.full.field C.fe v c) C.T
      = nodeAt C.fe v (C.full.collapse c ((C.D.q + 1) * C.D.N - 1)) := by
  have hdt := hM.ok.dt_ne
  have e : ((C.D.N - 1 : ℕ) : ℝ) = C.D.N - 1 := by rw [Nat.cast_sub hM.N_pos]; simp
  have hτ : (C.T - ((C.D.N - 1 : ℕ) : ℝ) * C.D.dt) / C.D.dt = 1 := by
    rw [e, hM.T_eq]; field_simp; ring
  rw [← field_top hC hM.N_pos v hc, Spec.val, hτ, sum_eq_single C.D.q]
  · rw [phi_at_one (q_le hM.ok) le_rfl, if_pos rfl, one_smul]
  · intro j hj hne
    rw [phi_at_one (q_le hM.ok) (Nat.lt_succ_iff.1 (mem_range.1 hj)), if_neg hne, zero_smul]
  · intro h; exact absurd (mem_range.2 (Nat.lt_succ_self _)) h

theorem pyIdx_last (hN : 1 ≤ C.D.N) (j : Fin 4) : pyIdx ((mkDofmaps C).full j) (-1)
      = .ok (C.full.collapse j ((C.D.timeOrder j + 1) * C.D.N - 1)) := by
  have e : (mkDofmaps C).full j = (List.range ((C.D.timeOrder j + 1) * C.D.N)).map (C.full.collapse j) :=
    buildDofmapsFull_eq _ _ _
  have hp : 0 < (C.D.timeOrder j + 1) * C.D.N := Nat.mul_pos (Nat.succ_pos _) hN
  rw [e]
  generalize (C.D.timeOrder j + 1) * C.D.N = m at hp
  obtain ⟨m, rfl⟩ : ∃ m', m = m' + 1 := ⟨m - 1, by omega⟩
  simp [pyIdx, pyGet?]

/-- What stands in a file: the values at the nodes of the distance between the exact function and the
discrete one. -/
def NodalError (fe : FE V) (ev : ℕ → V →ₗ[ℝ] ℝ) (exact discrete : V) (values : List ℝ) : Prop :=
  values.length = fe.mP ∧ ∀ s < fe.mP, values[s]? = some |ev s exact - ev s discrete|

theorem absDiff_nodal {ev : ℕ → V →ₗ[ℝ] ℝ} {interp : V → List ℝ} (he : C.fe.Nodal ev) (hi : Evaluates C.fe ev interp)
    (exact : V) (v : Vec) {idx : List ℕ} (hl : idx.length = C.fe.mP) :
    NodalError C.fe ev exact (nodeAt C.fe v idx) (absDiff (interp exact) (idx.map v)) := by
  refine ⟨by simp [absDiff, hi exact, hl], fun s hs => ?_⟩
  rw [absDiff, List.getElem?_zipWith, hi, he.nodeAt v idx hs]
  have hs' : s < idx.length := hl ▸ hs
  simp [hs, hs']

/-- C72: `plot_para_view` writes two files; they hold, node by node, the absolute difference at the
end time between the exact displacement and the discrete displacement, and between the exact velocity
and the discrete velocity component, of the vector passed.  The only exceptions are failures of
external calls. -/
theorem C72_files (hC : C.Ok) (hM : C.Meas) {ev : ℕ → V →ₗ[ℝ] ℝ} (he : C.fe.Nodal ev) {interp1 interp2 : V → List ℝ}
    (hi1 : Evaluates C.fe ev interp1) (hi2 : Evaluates C.fe ev interp2) {w : World V}
    (hd : w.obj.dofmaps = some (mkDofmaps C)) (x : Ref) (name : String) :
    Run w (plotParaViewFiles C interp1 interp2 x name w) fun r _ =>
      let U := C.full.field C.fe (w.heap x)
      ∃ a b, r = [⟨name ++ "-u.xdmf", "u-abserr", a⟩, ⟨name ++ "-ut.xdmf", "ut-abserr", b⟩] ∧
        NodalError C.fe ev (C.D.sol C.T) (Spec.val C.D.q C.D.dt (C.D.N - 1) (U 0) C.T) a ∧
        NodalError C.fe ev (C.dsol C.T) (Spec.val C.D.q C.D.dt (C.D.N - 1) (U 1) C.T) b := by
  unfold plotParaViewFiles
  rw [M.bind_ok (loadFinal_run hM.N_pos hd x)]
  refine Run.rebase (w₁ := { w with
      heap := Function.update w.heap .uh (w.heap x)
      obj := { w.obj with
        u10 := some (nodeAt C.fe (w.heap x) (C.full.collapse 0 ((C.D.q + 1) * C.D.N - 1)))
        u20 := some (nodeAt C.fe (w.heap x) (C.full.collapse 1 ((C.D.q + 1) * C.D.N - 1))) } }) rfl rfl ?_
  have l0 := pyIdx_last (C := C) hM.N_pos 0
  have l1 := pyIdx_last (C := C) hM.N_pos 1
  simp only [Disc.timeOrder, Matrix.cons_val_zero, Matrix.cons_val_one] at l0 l1
  rw [M.bind_ok (M.attr_some (by exact hd)), M.bind_ok (show getVec .uh _ = (.ok _, _) from rfl),
    M.bind_ok (by rw [M.lift_run, l0]), M.bind_ok (by rw [M.lift_run, l1])]
  refine Run.bind (Run.ext _) ?_
  rintro - w₂ -
  have hlen : ∀ c : Fin 4, c = 0 ∨ c = 1 → (C.full.collapse c ((C.D.q + 1) * C.D.N - 1)).length = C.fe.mP := fun c hc => by
    have hp : 0 < (C.D.q + 1) * C.D.N := Nat.mul_pos (Nat.succ_pos _) hM.N_pos
    rw [hC.full.len c _ (by rw [hC.fullN]; rcases hc with rfl | rfl <;> exact Nat.sub_lt hp one_pos)]
    rcases hc with rfl | rfl <;> rfl
  refine ⟨⟨_, _, rfl, ?_, ?_⟩, rfl, le_rfl⟩
  · rw [val_end hC hM _ (.inl rfl)]
    simpa using absDiff_nodal he hi1 (C.D.sol C.T) (w.heap x) (hlen 0 (.inl rfl))
  · rw [val_end hC hM _ (.inr rfl)]
    simpa using absDiff_nodal he hi2 (C.dsol C.T) (w.heap x) (hlen 1 (.inr rfl))

/-- C72: the displacement file agrees with the reconstruction used by `measured_errors` at the end time. -/
theorem C72_same_value (hC : C.Ok) (hM : C.Meas) (v : Vec) :
    Spec.val C.D.q C.D.dt (C.D.N - 1) (C.full.field C.fe v 0) C.T = C.recon v (C.D.N - 1) C.T := by
  rw [val_end hC hM v (.inl rfl), ← uh_eq_recon hM.ok.dt_ne, final_value hM, Cfg.node, ← top_index hM.N_pos, mul_comm]
  rfl

/-- Writing the files has exactly the effect on the object which `plotParaView` models. -/
theorem C72_effect (hN : 1 ≤ C.D.N) (interp1 interp2 : V → List ℝ) {w : World V}
    (hd : w.obj.dofmaps = some (mkDofmaps C)) (x : Ref) (name : String) :
    (plotParaViewFiles C interp1 interp2 x name w).2 = (plotParaView C x w).2 := by
  unfold plotParaViewFiles plotParaView
  rw [M.bind_ok (loadFinal_run hN hd x), M.bind_ok (loadFinal_run hN hd x)]
  have l0 := pyIdx_last (C := C) hN 0
  have l1 := pyIdx_last (C := C) hN 1
  rw [M.bind_ok (M.attr_some (by exact hd)), M.bind_ok (show getVec .uh _ = (.ok _, _) from rfl),
    M.bind_ok (by rw [M.lift_run, l0]), M.bind_ok (by rw [M.lift_run, l1])]
  simp only [M.bind_run, ext]
  split_ifs <;> rfl

/-! ## Non-vacuity -/

namespace Example
open Polynomial

/-- Values at the two end points of the unit interval. -/
noncomputable def evEnds (s : ℕ) : ℝ[X] →ₗ[ℝ] ℝ := Polynomial.leval (s : ℝ)

theorem fe_nodal : cfgM.fe.Nodal evEnds := by
  constructor
  intro s hs s' hs'
  have hs : s < 2 := hs
  have hs' : s' < 2 := hs'
  interval_cases s <;> interval_cases s' <;> simp [cfgM, cfg, fe, evEnds]

/-- The exact solution is `t`, so the file written for the zero vector holds `|1 - 0| = 1` at both
nodes, in both files. -/
example (heap : Ref → Vec) (h : heap (.user 0) = 0) : ∃ w',
    plotParaViewFiles cfgM (fun u => [evEnds 0 u, evEnds 1 u]) (fun u => [evEnds 0 u, evEnds 1 u]) (.user 0) "err"
      (runOps cfgM [.setupFE] (freshWorld heap))
      = (.ok [⟨"err-u.xdmf", "u-abserr", [1, 1]⟩, ⟨"err-ut.xdmf", "ut-abserr", [1, 1]⟩], w') := by
  have hE : Evaluates cfgM.fe evEnds fun u => [evEnds 0 u, evEnds 1 u] := fun u => rfl
  obtain ⟨r, w', h1, a, b, rfl, ha, hb⟩ := (C72_files (cfgM_ok) cfgM_meas fe_nodal hE hE (setUp_dofmaps heap) (.user 0)
    "err").noFail (setUp_noFail heap)
  have hh : (runOps cfgM [.setupFE] (freshWorld heap)).heap (.user 0) = 0 := by rw [← h]; rfl
  have hz : ∀ c, Spec.val cfgM.D.q cfgM.D.dt (cfgM.D.N - 1) (cfgM.full.field cfgM.fe 0 c) cfgM.T = 0 := fun c => by
    rw [field_zero]; simp [Spec.val]
  rw [hh, hz] at ha hb
  have key : ∀ l : List ℝ, ∀ u : ℝ[X], (∀ s, evEnds s u = 1) → NodalError cfgM.fe evEnds u 0 l → l = [1, 1] := by
    rintro l u hu ⟨hl, hv⟩
    have hl : l.length = 2 := hl
    have v0 := hv 0 (by change 0 < 2; norm_num)
    have v1 := hv 1 (by change 1 < 2; norm_num)
    obtain ⟨p, q, rfl⟩ := List.length_eq_two.1 hl
    simp [hu] at v0 v1
    rw [v0, v1]
  have ea := key a _ (fun s => by simp [evEnds, cfgM, cfg, disc]) ha
  have eb := key b _ (fun s => by simp [evEnds, cfgM]) hb
  exact ⟨w', by rw [h1, ea, eb]; rfl⟩

end Example
end Dxss
