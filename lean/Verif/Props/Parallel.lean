import Verif.Lemmas.Parallel
import Verif.Props.MatrixFree
import Verif.Example.Layout

/-!
# Several MPI ranks

The meshes are created on `MPI.COMM_WORLD` and the error norms are summed with `allreduce`, so the package is meant to
run on several ranks.  C73: evaluating a solution; C74: the matrix-free product; C75: the right-hand side.
-/

namespace Dxss.Par
open Finset
variable {V : Type} [AddCommGroup V] [Module ℝ V]

/-! ## C73 -/

/-- Full statement: a rank with `owned` owned and `ghosts` ghost dofs can load any solution vector (its owned part has
`owned` entries) into the function `uh` (which has an entry for every local dof).  False, see `C73_violated`. -/
def C73_statement : Prop := ∀ (owned ghosts : ℕ) (uh u : Arr), uh.length = owned + ghosts → u.length = owned →
  ∃ uh', loadInput uh u = .ok uh' ∧ uh'.take owned = u

/-- C73: `measured_errors` and `plot_para_view` raise `ValueError` on exactly the ranks with ghost dofs (unless
the rank owns a single dof, which numpy broadcasts). -/
theorem C73_raises (owned ghosts : ℕ) (uh u : Arr) (h : uh.length = owned + ghosts) (hu : u.length = owned) :
    loadInput uh u = .error .valueError ↔ 0 < ghosts ∧ owned ≠ 1 := by
  unfold loadInput assignAll
  by_cases hg : ghosts = 0
  · rw [if_pos (by omega)]; simp [hg]
  · rw [if_neg (by omega)]
    match u, hu with
    | [], hu => simp at hu; simp; omega
    | [x], hu => simp at hu; simp [← hu]
    | x :: y :: l, hu => simp at hu; simp; omega

/-- C73, without ghost dofs: every entry is loaded. -/
theorem C73_loaded_partial (uh u : Arr) (h : uh.length = u.length) : loadInput uh u = .ok u := by
  unfold loadInput assignAll; rw [if_pos h.symm]

theorem C73_violated : ¬ C73_statement := by
  intro h
  obtain ⟨a, e, -⟩ := h 2 1 [0, 0, 0] [1, 2] rfl rfl
  have := (C73_raises 2 1 [0, 0, 0] [1, 2] rfl rfl).2 (by decide)
  rw [e] at this
  cases this

example : loadInput [0, 0, 0] [1, 2, 3] = .ok [1, 2, 3] := C73_loaded_partial _ _ rfl

/-! ## C74 -/

/-- The vectors of a call have the owned entries. -/
structure Rank.Vecs (R : Rank) (x slab1 coup1 out : Arr) : Prop where
  x : x.length = R.fullOwned
  slab1 : slab1.length = R.slabOwned
  coup1 : coup1.length = R.coupOwned
  out : out.length = R.fullOwned

/-- A rank without ghost dofs, in the spaces used (the coupling space is not used with a single slab). -/
def Rank.NoGhosts (R : Rank) : Prop :=
  R.full.size = R.fullOwned ∧ R.slab.size = R.slabOwned ∧ (2 ≤ R.N → R.coup.size = R.coupOwned)

/-- Full statement: the matrix-free product returns on every rank.  False, see `C74_violated`. -/
def C74_statement : Prop := ∀ (R : Rank) (m : Fin 4 → ℕ), R.Ok m → 1 ≤ R.N → ∀ x slab1 coup1 out : Arr,
  R.Vecs x slab1 coup1 out → ∃ y, R.applySpacetimeMatrix x slab1 coup1 out = .ok y ∧ y.length = R.fullOwned

variable {R : Rank} {m : Fin 4 → ℕ} {x slab1 coup1 out : Arr}

theorem apply_good (h : R.Ok m) (hN : 1 ≤ R.N) (hv : R.Vecs x slab1 coup1 out) :
    Good R.NoGhosts (R.applySpacetimeMatrix x slab1 coup1 out) fun y => y.length = R.fullOwned ∧
      ∃ a b : ℕ → Arr, (∀ n < R.N, ∀ e < R.slab.size, abs (a n) e = pull m R.full R.slab (R.slabIx n) (abs x) e) ∧
        (∀ n < R.N, n ≠ 0 → ∀ e < R.coup.size, abs (b n) e = pull m R.full R.coup (R.coupIx n) (abs x) e) ∧
        abs y = ∑ n ∈ range R.N, R.part m n (a n) (b n) := by
  unfold Rank.applySpacetimeMatrix
  refine ((loop_good h x hv.x ⟨slab1, coup1, List.replicate out.length 0⟩
    ⟨hv.slab1, hv.coup1, by simpa using hv.out⟩ R.N le_rfl).bind (P' := True) fun s hs => ?_).mono
    ((and_iff_left trivial).trans (fits_all h hN)) fun _ h => h
  obtain ⟨hl, a, b, ha, hb, ho⟩ := hs
  refine Good.ok ⟨hl.2.2, a, b, ha, hb, ho.trans ?_⟩
  have h0 : abs (List.replicate out.length 0) = 0 := by
    funext d
    simp only [abs, List.getD_eq_getElem?_getD, List.getElem?_replicate]
    split <;> rfl
  rw [h0, zero_add]

/-- C74: the matrix-free product raises `IndexError` on every rank that has ghost dofs, whatever the vectors contain. -/
theorem C74_raises (h : R.Ok m) (hN : 1 ≤ R.N) (hv : R.Vecs x slab1 coup1 out) (hg : R.fullOwned < R.full.size) :
    R.applySpacetimeMatrix x slab1 coup1 out = .error .indexError := by
  rcases apply_good h hN hv with ⟨hp, -⟩ | ⟨-, e⟩
  · exact absurd hp.1 hg.ne'
  · exact e

/-- C74: on a rank without ghost dofs, the product returns. -/
theorem C74_returns_partial (h : R.Ok m) (hN : 1 ≤ R.N) (hv : R.Vecs x slab1 coup1 out) (hg : R.NoGhosts) :
    ∃ y, R.applySpacetimeMatrix x slab1 coup1 out = .ok y ∧ y.length = R.fullOwned := by
  rcases apply_good h hN hv with ⟨-, y, e, hl, -⟩ | ⟨hp, -⟩
  · exact ⟨y, e, hl⟩
  · exact absurd hg hp

/-- C74, exact: it returns if and only if there are no ghost dofs. -/
theorem C74_returns_iff (h : R.Ok m) (hN : 1 ≤ R.N) (hv : R.Vecs x slab1 coup1 out) :
    (∃ y, R.applySpacetimeMatrix x slab1 coup1 out = .ok y) ↔ R.NoGhosts := by
  refine ⟨fun ⟨y, e⟩ => ?_, fun hg => (C74_returns_partial h hN hv hg).imp fun _ h => h.1⟩
  rcases apply_good h hN hv with ⟨hp, -⟩ | ⟨-, e'⟩
  · exact hp
  · rw [e] at e'; cases e'

theorem ofCfg_ok {C : Cfg V} (h : C.Ok) : (ofCfg C).Ok C.fe.m where
  full := h.full
  fullN := h.fullN
  slab := h.slab
  slabN := h.slabN
  coup := h.coup
  coupN := h.coupN
  fullLe := le_rfl
  slabLe := le_rfl
  coupLe := le_rfl
  slabMult a := by simp [ofCfg]
  coupMult a := by simp [ofCfg]

theorem ofCfg_order (C : Cfg V) (c : Fin 4) : (ofCfg C).order c = C.D.timeOrder c := by fin_cases c <;> rfl

theorem abs_map_range (n : ℕ) (f : Vec) {d : ℕ} (hd : d < n) : abs ((List.range n).map f) d = f d := by
  simp [abs, List.getD_eq_getElem?_getD, hd]

/-- C74, one process: run on arrays with bounds, the product never raises, and it is entry for entry the product of the
sequential model (in which vectors are total functions), wherever its other theorems apply. -/
theorem C74_sequential {C : Cfg V} (hC : C.Ok) (hN : 1 ≤ C.D.N) {w : World V} (hw : MfReady C w.obj) {vin vout : Ref}
    (hi : vin ∉ mfScratch) (ho : vout ∉ mfScratch) (hne : vin ≠ vout)
    (hv : (ofCfg C).Vecs x slab1 coup1 out) (hx : ∀ d < C.full.size, w.heap vin d = x.getD d 0) :
    ∃ y w', (ofCfg C).applySpacetimeMatrix x slab1 coup1 out = .ok y ∧ y.length = C.full.size ∧
      applySpacetimeMatrix C vin vout w = (.ok (), w') ∧ ∀ d < C.full.size, y.getD d 0 = w'.heap vout d := by
  obtain ⟨w', e', -, -, -, -, hw'⟩ := apply_run hC hw hi ho
  rcases apply_good (ofCfg_ok hC) hN hv with ⟨-, y, e, hl, a, b, ha, hb, hy⟩ | ⟨hp, -⟩
  · refine ⟨y, w', e, hl, e', fun d hd => ?_⟩
    change abs y d = _
    rw [hy, hw', if_neg hne, mfOp]
    have key : ∀ n ∈ range C.D.N, (ofCfg C).part C.fe.m n (a n) (b n) = mfPart C (w.heap vin) n := fun n hn => by
      have hn := mem_range.1 hn
      have hix : (ofCfg C).slabIx n = slabIx C.D n := by
        funext c l; simp only [Rank.slabIx, slabIx, ofCfg_order]
      unfold Rank.part mfPart
      congr 1
      · rw [hix]
        refine push_congr (emb_slab hC hn) fun e he => ?_
        change abs ((List.range C.slab.size).map _) e = _
        rw [abs_map_range _ _ he]
        refine congrFun (Mat.mult_congr _ fun d' hd' => ?_) e
        refine (ha n hn d' hd').trans ?_
        rw [hix]
        exact congrFun (pull_congr (emb_slab hC hn) fun d hd => (hx d hd).symm) d'
      · by_cases h0 : n = 0
        · simp [h0]
        · rw [if_neg h0, if_pos (Nat.pos_of_ne_zero h0)]
          have E := emb_coup hC (Nat.pos_of_ne_zero h0) hn
          refine push_congr E fun e he => ?_
          change abs ((List.range C.coup.size).map _) e = _
          rw [abs_map_range _ _ he]
          refine congrFun (Mat.mult_congr _ fun d' hd' => ?_) e
          refine (hb n hn h0 d' hd').trans ?_
          exact congrFun (pull_congr E fun d hd => (hx d hd).symm) d'
    exact congrFun (sum_congr rfl key) d
  · exact absurd ⟨rfl, rfl, fun _ => rfl⟩ hp

/-! ## C75 -/

/-- The integrals of the right-hand side are sums over the cells. -/
structure Mesh.Of (M : Mesh V) (S : Space V) : Prop where
  mass : ∀ u v, S.mass u v = ∑ c ∈ range M.cells, (M.part c).mass u v
  stiff : ∀ u v, S.stiff u v = ∑ c ∈ range M.cells, (M.part c).stiff u v
  omega : ∀ i u v, S.omega i u v = ∑ c ∈ range M.cells, (M.part c).omega i u v

/-- Full statement: the right-hand side does not depend on the distribution of the mesh.  False, see
`C75_violated`. -/
def C75_statement (V : Type) [AddCommGroup V] [Module ℝ V] : Prop :=
  ∀ (C : Cfg V) (M : Mesh V), C.Ok → M.Of C.S → ∀ (u10 u20 : V) (d : ℕ), rhsOn M C u10 u20 d = rhsVecOf C u10 u20 d

def SOp.Cellwise : SOp → Prop
  | .mass | .stiff | .omega => True
  | _ => False

theorem evalLin_cells {M : Mesh V} {S : Space V} (h : M.Of S) (ind : V) (F : List (LTerm V))
    (hF : ∀ t ∈ F, SOp.Cellwise t.op) (W : Field V) :
    evalLin S ind F W = ∑ c ∈ range M.cells, evalLin (M.part c) ind F W := by
  induction F with
  | nil => simp
  | cons t F ih =>
    rw [evalLin_cons, ih fun t ht => hF t (by simp [ht])]
    simp only [evalLin_cons, sum_add_distrib]
    congr 1
    have ht := hF t (by simp)
    rcases t with ⟨c, op, src, test⟩
    cases op <;> simp only [SOp.Cellwise] at ht
    · simp only [LTerm.eval, SOp.eval, h.mass, mul_sum]
    · simp only [LTerm.eval, SOp.eval, h.stiff, mul_sum]
    · simp only [LTerm.eval, SOp.eval, h.omega, mul_sum]

theorem rhsForm_cellwise (D : Disc V) (S : Space V) (pts ws : List ℝ) (u v : V) :
    ∀ t ∈ D.rhsForm S pts ws u v, SOp.Cellwise t.op := by
  intro t ht
  rw [Disc.rhsForm, slabLoop_eq, List.mem_cons, List.mem_flatMap] at ht
  rcases ht with rfl | ⟨n, -, ht⟩
  · trivial
  · rw [Disc.rhsBody, List.mem_append, List.mem_map] at ht
    rcases ht with ⟨p, -, rfl⟩ | ht
    · trivial
    · split at ht
      · simp only [List.mem_cons, List.not_mem_nil, or_false] at ht
        rcases ht with rfl | rfl | rfl <;> trivial
      · simp at ht

/-- C75: an entry of the right-hand side lacks exactly the integrals over the cells that are not on the
rank owning the dof. -/
theorem C75_missing_cells (C : Cfg V) (M : Mesh V) (hM : M.Of C.S) (u10 u20 : V) {d : ℕ} (hd : d < C.full.size) :
    rhsVecOf C u10 u20 d = rhsOn M C u10 u20 d
      + ∑ c ∈ (range M.cells).filter (fun c => M.cellRank c ≠ M.dofRank d),
          evalLin (M.part c) C.D.ind (C.D.rhsForm C.S C.pts C.ws u10 u20) (C.full.field C.fe (unitVec d)) := by
  rw [rhsVecOf, assembleVec, if_pos hd, rhsOn, if_pos hd, assembleOn,
    evalLin_cells hM _ _ (rhsForm_cellwise _ _ _ _ _ _)]
  exact (sum_filter_add_sum_filter_not _ _ _).symm

/-- C75 holds if every cell on which the basis function of a dof does not vanish is on the rank owning the dof; in particular
on one rank. -/
theorem C75_right_hand_side_partial (C : Cfg V) (M : Mesh V) (hM : M.Of C.S) (u10 u20 : V)
    (hloc : ∀ d < C.full.size, ∀ c < M.cells, M.cellRank c ≠ M.dofRank d →
      evalLin (M.part c) C.D.ind (C.D.rhsForm C.S C.pts C.ws u10 u20) (C.full.field C.fe (unitVec d)) = 0) :
    rhsOn M C u10 u20 = rhsVecOf C u10 u20 := by
  funext d
  by_cases hd : d < C.full.size
  · rw [C75_missing_cells C M hM u10 u20 hd, sum_eq_zero, add_zero]
    intro c hc
    rw [mem_filter, mem_range] at hc
    exact hloc d hd c hc.1 hc.2
  · rw [rhsOn, if_neg hd, rhsVecOf, assembleVec, if_neg hd]

end Dxss.Par

/-! ## Example: the unit interval with two cells -/

namespace Dxss.Example
open Finset Par

/-- Values of a piecewise linear function at the nodes `0, 1/2, 1`. -/
abbrev Nodes := Fin 3 → ℝ

/-- The product of two nodal values. -/
def nn (i j : Fin 3) : Nodes →ₗ[ℝ] Nodes →ₗ[ℝ] ℝ :=
  LinearMap.mk₂ ℝ (fun u v => u i * v j) (by intros; simp; ring) (by intros; simp; ring) (by intros; simp; ring)
    (by intros; simp; ring)

theorem nn_apply (i j : Fin 3) (u v : Nodes) : nn i j u v = u i * v j := rfl

/-- Mass matrix of the cell with end nodes `i`, `j` and length `1/2`. -/
noncomputable def cellMass (i j : Fin 3) : Nodes →ₗ[ℝ] Nodes →ₗ[ℝ] ℝ :=
  (1 / 12 : ℝ) • ((2 : ℝ) • nn i i + nn i j + nn j i + (2 : ℝ) • nn j j)
/-- Its stiffness matrix. -/
noncomputable def cellStiff (i j : Fin 3) : Nodes →ₗ[ℝ] Nodes →ₗ[ℝ] ℝ :=
  (2 : ℝ) • (nn i i - nn i j - nn j i + nn j j)

/-- Piecewise linear functions with the given mass and stiffness matrix; the integrals that the right-hand side does not contain
are left out. -/
noncomputable def p1Space (M K : Nodes →ₗ[ℝ] Nodes →ₗ[ℝ] ℝ) (hM : ∀ u v, M u v = M v u) (hK : ∀ u v, K u v = K v u) :
    Space Nodes where
  mass := M
  stiff := K
  nit := 0
  pen := 0
  ghost := 0
  h2 := 0
  omega := 0
  lap := 0
  one := 1
  mass_symm := hM
  stiff_symm := hK
  pen_symm _ _ := rfl
  ghost_symm _ _ := rfl
  h2_symm _ _ := rfl
  omega_symm _ _ _ := rfl

noncomputable def cellSpace (i j : Fin 3) : Space Nodes :=
  p1Space (cellMass i j) (cellStiff i j) (fun u v => by simp [cellMass, nn_apply]; ring)
    (fun u v => by simp [cellStiff, nn_apply]; ring)

noncomputable def unitSpace : Space Nodes :=
  p1Space (cellMass 0 1 + cellMass 1 2) (cellStiff 0 1 + cellStiff 1 2)
    (fun u v => by simp [cellMass, nn_apply]; ring) (fun u v => by simp [cellStiff, nn_apply]; ring)

/-- Two ranks with one cell each; the middle node belongs to rank 0. -/
noncomputable def twoRanks : Mesh Nodes where
  cells := 2
  cellRank c := c
  dofRank _ := 0
  part c := if c = 0 then cellSpace 0 1 else cellSpace 1 2

theorem twoRanks_of : twoRanks.Of unitSpace := by
  constructor <;> intros <;>
    simp [twoRanks, sum_range_succ, unitSpace, cellSpace, p1Space]

noncomputable def feNodes : FE Nodes where
  mP := 3
  bP s := if s = 0 then ![1, 0, 0] else if s = 1 then ![0, 1, 0] else ![0, 0, 1]
  mD := 3
  bD s := if s = 0 then ![1, 0, 0] else if s = 1 then ![0, 1, 0] else ![0, 0, 1]

noncomputable def cfgNodes : Cfg Nodes where
  S := unitSpace
  D := { q := 1, qstar := 1, N := 1, dt := 1, lam := 5, eps := 0, E := elmatOf 1 1, gData := 1, gDual := 1, gPrimal := 1,
         gJump := 1, jumpsFw := false, wellPosed := true, ind := 1, sol := fun _ => 0 }
  fe := feNodes
  full := stdSpace (fullSizes 1 1 1) feNodes.m
  slab := stdSpace (slabSizes 1 1) feNodes.m
  coup := stdSpace couplingSizes feNodes.m
  bnd := stdSpace bndSizes feNodes.m
  pts := []
  ws := []
  T := 1
  dsol := fun _ => 0
  ptsHo := []
  wsHo := []
  samples := []

theorem cfgNodes_ok : cfgNodes.Ok :=
  ⟨⟨getElmatTime_ok (by simp [cfgNodes]) (by simp [cfgNodes]), by norm_num [cfgNodes]⟩,
    stdSpace_ok _ _, rfl, stdSpace_ok _ _, rfl, stdSpace_ok _ _, rfl, stdSpace_ok _ _, rfl⟩

/-- With initial velocity 1, the load at the middle node (component 1, index 0) is `1/2` on one rank and `1/4` on two. -/
theorem rhs_two_ranks : rhsVecOf cfgNodes 0 1 (cfgNodes.full.dof 1 0 1) = 1 / 2 ∧
    rhsOn twoRanks cfgNodes 0 1 (cfgNodes.full.dof 1 0 1) = 1 / 4 := by
  have hi : (0 : ℕ) < cfgNodes.full.nsub 1 := by decide
  have hlt := cfgNodes_ok.full.lt 1 0 1 hi (by decide)
  have hfield : ∀ c i, cfgNodes.full.field cfgNodes.fe (unitVec (cfgNodes.full.dof 1 0 1)) c i
      = if c = 1 ∧ i = 0 then ![0, 1, 0] else 0 := fun c i => by
    rw [field_unit cfgNodes_ok hi (by decide)]; rfl
  have hf : ∀ S : Space Nodes, evalLin S cfgNodes.D.ind (cfgNodes.D.rhsForm cfgNodes.S cfgNodes.pts cfgNodes.ws 0 1)
      (cfgNodes.full.field cfgNodes.fe (unitVec (cfgNodes.full.dof 1 0 1))) = S.mass 1 ![0, 1, 0] := fun S => by
    simp only [Disc.rhsForm, evalLin_cons, evalLin_slabLoop, Disc.rhsBody]
    simp only [LTerm.eval, SOp.eval, at_, Operand.eval, List.map_cons, List.map_nil, List.sum_cons, List.sum_nil, hfield]
    simp [cfgNodes, LTerm.eval, SOp.eval, Operand.eval]
    have h1 := hfield 1 0
    have h0 := hfield 0 0
    simp only [cfgNodes, and_self, if_true] at h0 h1
    simp [h1]
  constructor
  · rw [rhsVecOf, assembleVec, if_pos hlt, hf]
    simp [cfgNodes, unitSpace, p1Space, cellMass, nn_apply]; norm_num
  · rw [rhsOn, if_pos hlt, assembleOn]
    simp only [hf]
    rw [show (range twoRanks.cells).filter (fun c => twoRanks.cellRank c = twoRanks.dofRank (cfgNodes.full.dof 1 0 1)) = {0}
      from by decide, sum_singleton]
    simp [twoRanks, cellSpace, p1Space, cellMass, nn_apply]; norm_num

/-- C75 is false. -/
theorem C75_violated : ¬ C75_statement Nodes := by
  intro h
  have := h cfgNodes twoRanks cfgNodes_ok twoRanks_of 0 1 (cfgNodes.full.dof 1 0 1)
  rw [rhs_two_ranks.1, rhs_two_ranks.2] at this
  norm_num at this

/-- On one rank, C75 holds. -/
example : rhsOn { twoRanks with cellRank := fun _ => 0 } cfgNodes 0 1 = rhsVecOf cfgNodes 0 1 :=
  C75_right_hand_side_partial cfgNodes { twoRanks with cellRank := fun _ => 0 } ⟨twoRanks_of.mass, twoRanks_of.stiff, twoRanks_of.omega⟩ _ _
    fun _ _ _ _ h => absurd rfl h

/-- The same mesh seen by a rank that does not own the last node: in each space, one ghost dof per component and
index (here: the dofs of the last node come last). -/
noncomputable def ghosted : Rank :=
  { ofCfg cfgNodes with
    fullOwned := cfgNodes.full.size - 1
    slabOwned := cfgNodes.slab.size - 1
    coupOwned := cfgNodes.coup.size - 1
    slabMult := fun _ => List.replicate (cfgNodes.slab.size - 1) 0
    coupMult := fun _ => List.replicate (cfgNodes.coup.size - 1) 0 }

theorem ghosted_ok : ghosted.Ok cfgNodes.fe.m :=
  { ofCfg_ok cfgNodes_ok with
    fullLe := Nat.sub_le _ _
    slabLe := Nat.sub_le _ _
    coupLe := Nat.sub_le _ _
    slabMult := fun _ => List.length_replicate
    coupMult := fun _ => List.length_replicate }

/-- C74 is false. -/
theorem C74_violated : ¬ C74_statement := by
  intro h
  have hv : ghosted.Vecs (List.replicate (cfgNodes.full.size - 1) 0) (List.replicate (cfgNodes.slab.size - 1) 0)
      (List.replicate (cfgNodes.coup.size - 1) 0) (List.replicate (cfgNodes.full.size - 1) 0) :=
    ⟨List.length_replicate, List.length_replicate, List.length_replicate, List.length_replicate⟩
  obtain ⟨y, e, -⟩ := h ghosted _ ghosted_ok le_rfl _ _ _ _ hv
  rw [C74_raises ghosted_ok le_rfl hv (by decide)] at e
  cases e

/-- Without ghosts, the product on arrays is the one of the sequential model; here with two slabs. -/
example (x : Arr) (hx : x.length = (cfg false false).full.size) :=
  C74_sequential (x := x) (slab1 := List.replicate (cfg false false).slab.size 0)
    (coup1 := List.replicate (cfg false false).coup.size 0) (out := List.replicate (cfg false false).full.size 0)
    (cfg_ok false false) (by decide) (w := readyWorld _ fun _ d => x.getD d 0) (readyObj_ready _) (user_notMem 0)
    (user_notMem 1) (by decide) ⟨hx, List.length_replicate, List.length_replicate, List.length_replicate⟩
    fun _ _ => rfl

end Dxss.Example
