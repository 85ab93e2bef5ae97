import Verif.Lemmas.TriRefine
import Verif.Props.Meshes
import Verif.Props.Wave2Error

/-! # C113: refined meshes -/

namespace Dxss
open Finset MeasureTheory

namespace Tri
variable {m : Tri} {hm hM δ R : ℝ}

/-- The triangles, as a domain. -/
def domain (m : Tri) : Set (Fin 2 → ℝ) := ⋃ K, m.tri K

/-- C113: `refine` with all edges divides every triangle into four of the same area whose union it is, that overlap in null sets only; the
boundary of the domain stays the same; every edge becomes half as long as one of the old triangle, or, in slim triangles, at most
`√2 / 2` times as long as the longest one. -/
theorem C113_refine (m : Tri) : (∃ kid : Fin m.n → Fin 4 → Fin m.refine.n, Function.Bijective (fun p : Fin m.n × Fin 4 => kid p.1 p.2) ∧
    ∀ K, (⋃ c, m.refine.tri (kid K c) = m.tri K) ∧ (∀ c d, c ≠ d → volume (m.refine.tri (kid K c) ∩ m.refine.tri (kid K d)) = 0) ∧
      ∀ c, m.refine.det (kid K c) = m.det K / 4 ∧ (∀ i, len (m := m.refine) (kid K c, i) ≤ √2 / 2 * m.diam K) ∧
        ((∀ i j, √2 / 2 * len (m := m) (K, j) ≤ len (m := m) (K, i)) →
          (∀ i, ∃ j, len (m := m.refine) (kid K c, i) = len (m := m) (K, j) / 2) ∧ m.refine.diam (kid K c) = m.diam K / 2)) ∧
    m.refine.domain = m.domain ∧ ∀ x, m.refine.OnBoundary x ↔ m.OnBoundary x := by
  refine ⟨⟨m.kid, ?_, fun K => ⟨?_, ?_, fun c => ⟨refine_det K c, refine_len K c, fun h => ?_⟩⟩⟩, ?_, refine_boundary⟩
  · constructor
    · rintro ⟨K, c⟩ ⟨L, d⟩ h
      obtain ⟨rfl, rfl⟩ := child_inj (m := m.turn m.longest) (fl := m.slim) h
      rfl
    · intro J
      obtain ⟨K, c, rfl⟩ := exists_kid J
      exact ⟨(K, c), rfl⟩
  · have := split_cover (m := m.turn m.longest) (fl := m.slim) K
    rw [turn_tri] at this
    exact this
  · intro c d h
    exact split_part (m := m.turn m.longest) (fl := m.slim) K h
  · have hs := (slim_iff K).2 h
    refine ⟨fun i => ⟨_, refine_len_fat hs c i⟩, ?_⟩
    unfold diam
    rw [refine_len_fat hs, refine_len_fat hs, refine_len_fat hs]
    have mx : ∀ x y : ℝ, max (x / 2) (y / 2) = max x y / 2 := fun x y => (max_div_div_right (by norm_num) x y)
    rw [mx, mx]
    congr 1
    have : ∀ j : Fin 3, max (max (len (m := m) (K, 0 + j)) (len (m := m) (K, 1 + j))) (len (m := m) (K, 2 + j))
        = max (max (len (m := m) (K, 0)) (len (m := m) (K, 1))) (len (m := m) (K, 2)) := by
      intro j
      fin_cases j
      · rfl
      · change max (max (len (m := m) (K, 1)) (len (m := m) (K, 2))) (len (m := m) (K, 0)) = _
        rw [max_comm, ← max_assoc]
      · change max (max (len (m := m) (K, 2)) (len (m := m) (K, 0))) (len (m := m) (K, 1)) = _
        rw [max_assoc, max_comm]
    exact this _
  · have := split_union (m := m.turn m.longest) (fl := m.slim)
    simp only [turn_tri] at this
    exact this

/-- C113: a function of the coarse finite element space is, on the refined mesh, a function of the space of the same order: the same
function on the parts of every triangle, with the same integrals. -/
theorem C113_nested (m : Tri) : ∃ P : m.Broken →ₗ[ℝ] m.refine.Broken,
    (∀ u J, ∃ K, m.refine.tri J ⊆ m.tri K ∧ P u J = u K) ∧ (∀ k u, u ∈ m.lagrange k → P u ∈ m.refine.lagrange k) ∧
    ∀ u w, m.refine.space.mass (P u) (P w) = m.space.mass u w ∧ m.refine.space.stiff (P u) (P w) = m.space.stiff u w ∧
      (∀ i, m.refine.space.omega (P i) (P u) (P w) = m.space.omega i u w) ∧ 2 * m.refine.space.h2 (P u) (P u) ≤ m.space.h2 u u := by
  refine ⟨m.toFine, fun u J => ?_, fun k u hu => ?_, fun u w => ⟨?_, ?_, fun i => ?_, ?_⟩⟩
  · obtain ⟨K, c, rfl⟩ := exists_kid J
    refine ⟨K, ?_, toFine_kid u K c⟩
    have := split_sub (m := m.turn m.longest) (fl := m.slim) K c
    rw [turn_tri] at this
    exact this
  · refine fine_lagrange (m := m.turn m.longest) (fl := m.slim) ?_
    rw [turn_lagrange]; exact hu
  · exact (fine_mass (m := m.turn m.longest) (fl := m.slim) u w).trans (turn_mass u w)
  · exact (fine_stiff (m := m.turn m.longest) (fl := m.slim) u w).trans (turn_stiff u w)
  · exact (fine_omega (m := m.turn m.longest) (fl := m.slim) i u w).trans (turn_omega i u w)
  · rw [space_h2, space_h2]
    have e : ∑ J, m.refine.diam J ^ 2 * m.refine.cellL2 J (m.toFine u J) (m.toFine u J)
        = ∑ K, ∑ c, m.refine.diam (m.kid K c) ^ 2 * m.refine.cellL2 (m.kid K c) (u K) (u K) := by
      refine (split_sum (m := m.turn m.longest) (fl := m.slim) _).trans ?_
      refine sum_congr rfl fun K _ => sum_congr rfl fun c _ => ?_
      change m.refine.diam (m.kid K c) ^ 2 * m.refine.cellL2 (m.kid K c) (m.toFine u (m.kid K c)) (m.toFine u (m.kid K c)) = _
      rw [toFine_kid]
    rw [e, mul_sum]
    refine sum_le_sum fun K _ => ?_
    have hc : ∑ c, m.refine.cellL2 (m.kid K c) (u K) (u K) = m.cellL2 K (u K) (u K) :=
      (fine_cell (m := m.turn m.longest) (fl := m.slim) K (u K) (u K)).trans (turn_cell K _ _)
    rw [← hc, mul_sum, mul_sum]
    refine sum_le_sum fun c _ => ?_
    have hd : m.refine.diam (m.kid K c) ≤ √2 / 2 * m.diam K := max_le (max_le (refine_len K c 0) (refine_len K c 1)) (refine_len K c 2)
    have hd0 : 0 ≤ m.refine.diam (m.kid K c) := (len_nonneg' _).trans (len_le_diam (m := m.refine) (m.kid K c, 0))
    have hq := pow_le_pow_left₀ hd0 hd 2
    rw [mul_pow, div_pow, Real.sq_sqrt (by norm_num)] at hq
    have := cellL2_self (m := m.refine) (m.kid K c) (u K)
    rw [← mul_assoc]
    exact mul_le_mul_of_nonneg_right (by linarith) this

/-! ### Several refinements -/

theorem iter_tiles (h : m.Tiles) (i : ℕ) : (refine^[i] m).Tiles := by
  induction i with
  | zero => exact h
  | succ i ih => rw [Function.iterate_succ_apply']; exact refine_tiles ih

theorem iter_bd (h : m.BdSquare) (i : ℕ) : (refine^[i] m).BdSquare := by
  induction i with
  | zero => exact h
  | succ i ih => rw [Function.iterate_succ_apply']; exact refine_bd ih

theorem iter_n (i : ℕ) : (refine^[i] m).n = 4 ^ i * m.n := by
  induction i with
  | zero => simp
  | succ i ih => rw [Function.iterate_succ_apply', refine_n, ih]; ring

theorem Bounds.weaken (h : m.Bounds hm hM δ R) (hn : 0 < m.n) : m.Bounds (δ / hM) hM δ R := by
  have hM0 : 0 < hM := h.hm0.trans_le h.le
  have lo := fun e => len_ge (m := m) hM0 h.hi h.area e
  exact { h with hm0 := div_pos h.δ0 hM0, le := (lo (⟨0, hn⟩, 0)).trans (h.hi _), lo := lo }

theorem iter_bounds (h : m.Bounds hm hM δ R) (hn : 0 < m.n) (i : ℕ) :
    (refine^[i] m).Bounds (δ / 4 ^ i / ((√2 / 2) ^ i * hM)) ((√2 / 2) ^ i * hM) (δ / 4 ^ i) R := by
  induction i with
  | zero => simpa using h.weaken hn
  | succ i ih =>
    rw [Function.iterate_succ_apply']
    have := ih.refine (by rw [iter_n]; positivity)
    convert this using 1 <;> ring

theorem iter_fat (h : m.Bounds hm hM δ R) (hs : ∀ K, m.slim K = false) (i : ℕ) :
    (∀ K, (refine^[i] m).slim K = false) ∧ (refine^[i] m).Bounds (hm / 2 ^ i) (hM / 2 ^ i) (δ / 4 ^ i) R := by
  induction i with
  | zero => simpa using ⟨hs, h⟩
  | succ i ih =>
    rw [Function.iterate_succ_apply']
    refine ⟨refine_fat ih.1, ?_⟩
    have := ih.2.refine_fat ih.1
    convert this using 1 <;> ring

end Tri

/-! ### Hierarchies -/

section
variable {Mesh : Type} [DecidableEq Mesh] {L : MeshLib Mesh}

/-- The meshes of the library are triangulations in the plane, and `refine` with all edges is that of the model. -/
structure MeshLib.Plane (L : MeshLib Mesh) (geo : Mesh → Tri) : Prop where
  cells : ∀ m, L.numCells m = (geo m).n
  verts : ∀ m c (h : c < (geo m).n), ∀ x ∈ L.verts m c, ∃ i, x 0 = (geo m).v ⟨c, h⟩ i 0
  edges : ∀ m, L.NoDanglingEdge m
  refine : ∀ m edges, (∀ e < L.numEdges m, e ∈ edges) → geo (L.refine m (some edges)) = (geo m).refine

/-- C113: on a triangulation of the unit square the builders for the plane return `n_ref + 1` triangulations of the unit square, each the
uniform refinement of its predecessor: `4 ^ i` times as many triangles on level `i`, of diameter at most `(√2 / 2) ^ i` times that of the
initial mesh, `2 ^ (-i)` times if no edge of a triangle of the initial mesh is shorter than `√2 / 2` times another one. -/
theorem C113_hierarchy {geo : Mesh → Tri} (hL : L.Plane geo) {b : Builder} (hb : b ≠ .data3d) {v : PyVersion} (hv : L.Accepts b v)
    {m₀ : Mesh} (ht : (geo m₀).Tiles) (hbd : (geo m₀).BdSquare) {hm hM δ R : ℝ} (hB : (geo m₀).Bounds hm hM δ R) (n : ℕ) (s : Created Mesh) :
    ∃ l s', hierarchy L b v n m₀ s = (.ok l, s') ∧ l.length = n + 1 ∧ ∀ i m, l[i]? = some m → geo m = Tri.refine^[i] (geo m₀) ∧
      (geo m).Tiles ∧ (geo m).BdSquare ∧ (geo m).n = 4 ^ i * (geo m₀).n ∧
      (geo m).Bounds (δ / 4 ^ i / ((√2 / 2) ^ i * hM)) ((√2 / 2) ^ i * hM) (δ / 4 ^ i) R ∧
      ((∀ K i j, √2 / 2 * Tri.len (m := geo m₀) (K, j) ≤ Tri.len (m := geo m₀) (K, i)) →
        (geo m).Bounds (hm / 2 ^ i) (hM / 2 ^ i) (δ / 4 ^ i) R) := by
  obtain ⟨l, s', h1, h2, h3, h4⟩ := C49_hierarchy hv n m₀ s
  refine ⟨l, s', h1, h2, ?_⟩
  have key : ∀ i m, l[i]? = some m → geo m = Tri.refine^[i] (geo m₀) := by
    intro i
    induction i with
    | zero => intro m hm; rw [h3] at hm; cases hm; rfl
    | succ i ih =>
      intro m' hm'
      have hi : i < l.length := by
        by_contra hc
        rw [List.getElem?_eq_none (by omega)] at hm'
        cases hm'
      have hm := List.getElem?_eq_getElem hi
      have e := ih _ hm
      have hr := h4 i _ m' hm hm'
      unfold MeshLib.Refines at hr
      rw [if_neg hb] at hr
      obtain ⟨edges, hmark, rfl⟩ := hr
      have tl : (geo l[i]).Tiles := by rw [e]; exact Tri.iter_tiles ht i
      rw [Function.iterate_succ_apply', ← e]
      refine hL.refine _ _ fun ed hed => (hmark ed).2 ⟨hed, ?_⟩
      obtain ⟨c, hc, hinc⟩ := hL.edges _ ed hed
      refine ⟨c, hc, fun x hx => ?_, hinc⟩
      rw [hL.cells] at hc
      obtain ⟨j, hj⟩ := hL.verts _ c hc x hx
      have hmem : (geo l[i]).v ⟨c, hc⟩ j ∈ (geo l[i]).tri ⟨c, hc⟩ := subset_convexHull ℝ _ (by fin_cases j <;> simp)
      have : (geo l[i]).v ⟨c, hc⟩ j ∈ Set.Icc (0 : Fin 2 → ℝ) 1 := by rw [← tl.cover]; exact Set.mem_iUnion.2 ⟨_, hmem⟩
      rw [hj]
      exact this.1 0
  intro i m hm
  have e := key i m hm
  rw [e]
  refine ⟨rfl, Tri.iter_tiles ht i, Tri.iter_bd hbd i, Tri.iter_n i, Tri.iter_bounds hB ht.pos i, fun h => ?_⟩
  exact (Tri.iter_fat hB (fun K => (Tri.slim_iff K).2 (h K)) i).2
end

/-! ### What this means for solve_2d.py -/

section
variable {m₀ : Tri} {hm hM δ R : ℝ}

/-- The mesh of solve_2d.py, `msh = ls_mesh[REF_LVL]` with `REF_LVL = 3` (solve_2d.py:61, 79-82), for the initial mesh `m₀`. -/
noncomputable def mesh2 (m₀ : Tri) : Tri := Tri.refine^[3] m₀

theorem cube_half : (√2 / 2) ^ 3 = √2 / (4:ℝ) := by
  have : √2 ^ 2 = (2:ℝ) := Real.sq_sqrt (by norm_num)
  rw [div_pow]; linear_combination √2 / 8 * this

/-- The sizes on level 3 in terms of those of the initial mesh. -/
theorem order3 (h : m₀.Bounds hm hM δ R) (h0 : 0 < m₀.n) (hR : R ^ 2 ≤ 2) {H D : ℝ} (hH : 0 ≤ H) (hD : 0 < D) (e1 : √2 / 4 * hM ≤ H) (e2 : D ≤ δ / 64) {c : ℝ}
    (hc : (4 * H + 240 * H ^ 2 / D) / 45 + 16 * (H / D) ^ 2 + 480 * (H / D) ^ 2 ≤ c) :
    ∃ hm' hM' δ', (mesh2 m₀).Bounds hm' hM' δ' R ∧ orderConst (triConst hm' hM' δ' R 45) (hM' ^ 2) (1 / (8:ℤ)) 1e-3
      ≤ 7 * c / 1e-3 * (13 + 340 * (H ^ 2 / (1 / ((8:ℤ):ℝ)) ^ 2) + c * (H ^ 2 / (1 / ((8:ℤ):ℝ)) ^ 4) * (12528 + 115200 * (H ^ 2 / (1 / ((8:ℤ):ℝ)) ^ 2))) := by
  have b := Tri.iter_bounds h h0 3
  rw [cube_half] at b
  norm_num at b
  refine ⟨_, _, _, b, ?_⟩
  have hR0 := h.R0; have hδ := h.δ0
  have hM0 : 0 < hM := h.hm0.trans_le h.le
  have hR1 : R ≤ 2 := by nlinarith
  have hR4 : R ^ 4 ≤ 4 := by nlinarith [sq_nonneg (R ^ 2)]
  have hc0 : 0 ≤ triConst (δ / 64 / (√2 / 4 * hM)) (√2 / 4 * hM) (δ / 64) R 45 := triConst_nonneg b (by norm_num)
  have hP : 0 < √2 / 4 * hM := by positivity
  have hQ : 0 < δ / 64 := by positivity
  have hcc : triConst (δ / 64 / (√2 / 4 * hM)) (√2 / 4 * hM) (δ / 64) R 45 ≤ c := by
    refine le_trans ?_ hc
    unfold triConst
    generalize √2 / 4 * hM = P at *
    generalize δ / 64 = Q at *
    have q : P / Q ≤ H / D := by gcongr
    have q1 : 4 * R ^ 4 / (Q / P) ^ 2 = 4 * R ^ 4 * (P / Q) ^ 2 := by field_simp
    have q2 : 120 * P * R ^ 4 / (Q * (Q / P)) = 120 * R ^ 4 * (P / Q) ^ 2 := by field_simp
    rw [q1, q2]
    calc (2 * R * P + 120 * R ^ 2 * P ^ 2 / Q) / 45 + 4 * R ^ 4 * (P / Q) ^ 2 + 120 * R ^ 4 * (P / Q) ^ 2
        ≤ (2 * 2 * H + 120 * 2 * H ^ 2 / D) / 45 + 4 * 4 * (H / D) ^ 2 + 120 * 4 * (H / D) ^ 2 := by gcongr
      _ = _ := by ring
  unfold orderConst
  have := hc0.trans hcc
  gcongr

/-- C113: on every initial triangulation of the unit square whose triangles have area at least 1/1000, the matrix of solve_2d.py, with
any data domain, has exactly one solution for every right-hand side. -/
theorem C113_unique {m : Tri} (hm : m = mesh2 m₀) {interp : m.Broken →ₗ[ℝ] m.Broken} {sol dsol : ℝ → m.Broken}
    {om om' : DataDomain m.Broken} {B : Built m.Broken} {C : Cfg m.Broken}
    (ht : m₀.Tiles) (har : ∀ K, 1 / 1000 ≤ m₀.det K / 2)
    (hb : construct interp (Script.d2.args sol dsol) om = (.ok B, om'))
    (hC : C.Ok) (hB : C.OfBuilt B) (hS : C.S = m.space) (hind : m.Nonneg C.D.ind)
    (hfe : C.fe.primal ≤ m.lagrange 3) (hi : C.fe.Indep)
    {w₀ : World m.Broken} (h₀ : w₀.Fresh) (ops : List (Op m.Broken))
    (hops : ∀ op ∈ ops, ¬ op.OtherFlag false) {A : Mat} {w₁ : World m.Broken}
    (h : getSpacetimeMatrix C false (runOps C ops w₀) = (.ok A, w₁)) : A.size = C.full.size ∧ A.UniquelySolvable := by
  subst hm
  have b := ht.bounds (δ := 2 / 1000) (by norm_num) (fun K => by have := har K; linarith)
  have sq2 : √2 ^ 2 = (2:ℝ) := Real.sq_sqrt (by norm_num)
  obtain ⟨hm', hM', δ', b', o⟩ := order3 b ht.pos (by rw [sq2]) (H := 1 / 2) (D := 1 / 32000) (c := 1.28e11) (by norm_num) (by norm_num)
    (by nlinarith) (by norm_num) (by norm_num)
  refine C110_solve_2d (N := 8) hb (by norm_num) hC hB hS hind hfe hi b' ?_ h₀ ops hops h
  have o' : orderConst (triConst hm' hM' δ' (√2) 45) (hM' ^ 2) (1 / (8:ℤ)) 1e-3 ≤ 3e37 / 64 := o.trans (by norm_num)
  have e : ((8:ℤ):ℝ) ^ 2 = 64 := by norm_num
  rw [e]
  linarith

/-- A condition on the initial mesh of solve_2d.py: edges of length at most 0.7 and triangles of area at least 0.05; or no edge shorter than
`√2 / 2` times another one of the same triangle, edges between 0.08 and 1 and areas at least 0.0032. -/
def Tri.Coarse (m : Tri) : Prop :=
  ((∀ e : m.Edge, Tri.len e ≤ 0.7) ∧ ∀ K, 0.05 ≤ m.det K / 2) ∨
  ((∀ K i j, √2 / 2 * Tri.len (m := m) (K, j) ≤ Tri.len (m := m) (K, i)) ∧ (∀ e : m.Edge, 0.08 ≤ Tri.len e ∧ Tri.len e ≤ 1) ∧
    ∀ K, 0.0032 ≤ m.det K / 2)

theorem Tri.Coarse.sizes (h : m₀.Coarse) (ht : m₀.Tiles) : ∃ hm' hM' δ' R', (mesh2 m₀).Bounds hm' hM' δ' R' ∧
    orderConst (triConst hm' hM' δ' R' 45) (hM' ^ 2) (1 / (8:ℤ)) 1e-3 ≤ 2.1e26 := by
  have sq2 : √2 ^ 2 = (2:ℝ) := Real.sq_sqrt (by norm_num)
  have s2 : √2 ≤ (1.4143:ℝ) := by rw [Real.sqrt_le_left (by norm_num)]; norm_num
  rcases h with ⟨h1, h2⟩ | ⟨h1, h2, h3⟩
  · have b := ht.bounds (δ := 1 / 10) (by norm_num) (fun K => by have := h2 K; norm_num at this ⊢; linarith)
    have b' : m₀.Bounds (1 / 10 / 0.7) 0.7 (1 / 10) (√2) :=
      { b with hm0 := by norm_num, le := by norm_num, hi := h1, lo := fun e => Tri.len_ge (m := m₀) (by norm_num) h1 b.area e }
    obtain ⟨hm', hM', δ', c1, c2⟩ := order3 b' ht.pos (by rw [sq2]) (H := 0.24752) (D := 1 / 640) (c := 1.245e7) (by norm_num) (by norm_num)
      (by norm_num at s2 ⊢; linarith) (by norm_num) (by norm_num)
    exact ⟨hm', hM', δ', _, c1, c2.trans (by norm_num)⟩
  · have b := ht.bounds (δ := 0.0064) (by norm_num) (fun K => by have := h3 K; norm_num at this ⊢; linarith)
    have b' : m₀.Bounds 0.08 1 0.0064 (√2) :=
      { b with hm0 := by norm_num, le := by norm_num, hi := fun e => (h2 e).2, lo := fun e => (h2 e).1 }
    have b3 := (Tri.iter_fat b' (fun K => (Tri.slim_iff K).2 (h1 K)) 3).2
    exact ⟨_, _, _, _, b3, C110_mesh_sizes b3 (by norm_num) (by norm_num) (by norm_num) (by rw [sq2])⟩

/-- C113 and C111: with an initial mesh of moderate size solve_2d.py reports the errors of the zero vector. -/
theorem C113_reports {m : Tri} (hm : m = mesh2 m₀) {interp : m.Broken →ₗ[ℝ] m.Broken} {ind : m.Broken} {om' : DataDomain m.Broken}
    {B : Built m.Broken} {C : Cfg m.Broken} (ht : m₀.Tiles) (hm₀ : m₀.Coarse)
    (hb : construct interp (Script.d2.args m.sol2 m.dsol2) (Script.d2.dataDomain ind) = (.ok B, om'))
    (hC : C.Ok) (hB : C.OfBuilt B) (hS : C.S = m.space) (hfe : C.fe.primal ≤ m.lagrange 3)
    {w₀ : World m.Broken} (h₀ : w₀.Fresh) {r : Ref} {w₁ : World m.Broken}
    (h : scriptSetup C w₀ = (.ok r, w₁)) {A : Mat} (hA : C.Returns false A)
    {z₀ : World m.Broken} (hz : z₀.Fresh) (ops : List (Op m.Broken)) (x : InVec)
    (hx : ∀ d < A.size, A.mult ((runOps C ops z₀).heap x.ref) d = w₁.heap r d)
    {rep : ErrDict} {z₁ : World m.Broken} (hrep : measuredErrors C x.ref (runOps C ops z₀) = (.ok rep, z₁))
    {y₀ : World m.Broken} (hy : y₀.Fresh) (ops' : List (Op m.Broken)) (x' : InVec)
    (hx' : (runOps C ops' y₀).heap x'.ref = 0) {rep0 : ErrDict} {y₁ : World m.Broken}
    (hrep0 : measuredErrors C x'.ref (runOps C ops' y₀) = (.ok rep0, y₁)) :
    CloseReport rep rep0 ∧ rep0.l2T = C.S.norm (C.D.sol C.T) ∧ 2 / 25 ≤ rep0.l2T ∧ rep0.linfU = 1 / 2 := by
  subst hm
  obtain ⟨_, _, _, _, b, o⟩ := hm₀.sizes ht
  have := C111_solution_partial hb (Tri.iter_tiles ht 3) b o hC hB hS hfe h₀ h hA hz ops x hx hrep hy ops' x' hx' hrep0
  exact ⟨this.1, this.2.1, this.2.2.2⟩

end

namespace Example
open Tri

/-- Meshes that are triangulations; the edges are numbered triangle by triangle. -/
noncomputable def triLib (takes : Bool) : MeshLib Tri where
  numCells m := m.n
  verts m c := if h : c < m.n then (List.finRange 3).map fun i a => if a = 0 then m.v ⟨c, h⟩ i 0 else if a = 1 then m.v ⟨c, h⟩ i 1 else 0 else []
  numEdges m := 3 * m.n
  incident _ c e := e / 3 == c
  refine m edges := by classical exact match edges with
    | none => m.refine
    | some l => if ∀ e < 3 * m.n, e ∈ l then m.refine else m
  takesTopology := takes

theorem triLib_plane (t : Bool) : (triLib t).Plane id where
  cells _ := rfl
  verts m c h x hx := by
    simp only [triLib] at hx
    rw [dif_pos (show c < m.n from h)] at hx
    obtain ⟨i, -, rfl⟩ := List.mem_map.1 hx
    exact ⟨i, rfl⟩
  edges m e he := by
    simp only [triLib] at he ⊢
    exact ⟨e / 3, by omega, by simp⟩
  refine m edges h := by
    simp only [triLib]
    exact if_pos h

theorem squares_fat {k : ℕ} {hk : 0 < k} (K : Fin (squares k hk).n) (i j : Fin 3) :
    √2 / 2 * len (m := squares k hk) (K, j) ≤ len (m := squares k hk) (K, i) := by
  have h : (0:ℝ) ≤ 1 / k := by positivity
  have sq2 : √2 * √2 = (2:ℝ) := Real.mul_self_sqrt (by norm_num)
  have s : (1:ℝ) ≤ √2 := Real.one_le_sqrt.2 (by norm_num)
  have s' : √2 ≤ (2:ℝ) := by nlinarith
  have lo : 1 / (k:ℝ) ≤ len (m := squares k hk) (K, i) := by
    rcases squares_len (k := k) (hk := hk) (K, i) with e | e <;> rw [e]
    exact le_mul_of_one_le_left h s
  have hi : len (m := squares k hk) (K, j) ≤ √2 * (1 / k) := by
    rcases squares_len (k := k) (hk := hk) (K, j) with e | e <;> rw [e]
    exact le_mul_of_one_le_left h s
  calc √2 / 2 * len (m := squares k hk) (K, j) ≤ √2 / 2 * (√2 * (1 / k)) := by gcongr
    _ = 1 / k := by rw [← mul_assoc, div_mul_eq_mul_div, sq2]; ring
    _ ≤ _ := lo

/-- C113 for a hierarchy of six meshes, the first of them four squares cut along diagonals. -/
example (s : Created Tri) : letI : DecidableEq Tri := Classical.decEq _
    ∃ l s', hierarchy (triLib false) .dataAllAround { release := [0, 6] } 5 (squares 2 (by norm_num)) s = (.ok l, s') ∧ l.length = 6 ∧
      ∀ i m, l[i]? = some m → m.Tiles ∧ m.n = 4 ^ i * (squares 2 (by norm_num)).n := by
  let : DecidableEq Tri := Classical.decEq _
  obtain ⟨l, s', h1, h2, h3⟩ := C113_hierarchy (triLib_plane false) (b := .dataAllAround) (by decide) (v := { release := [0, 6] })
    (.inr ⟨fun h => absurd h (by decide), fun h => absurd h (by simp [triLib])⟩) (m₀ := squares 2 (by norm_num)) squares_tiles squares_bd squares_bounds 5 s
  exact ⟨l, s', h1, h2, fun i m hm => ⟨(h3 i m hm).2.1, (h3 i m hm).2.2.2.1⟩⟩

/-- The initial mesh of four squares meets the conditions of `C113_unique` and `C113_reports`. -/
example : (squares 2 (by norm_num)).Coarse ∧ ∀ K, 1 / 1000 ≤ (squares 2 (by norm_num)).det K / 2 := by
  have b := squares_bounds (k := 2) (hk := by norm_num)
  have s2 : √2 ≤ (1.4143:ℝ) := by rw [Real.sqrt_le_left (by norm_num)]; norm_num
  have ar : ∀ K, 1 / 4 ≤ (squares 2 (by norm_num)).det K := fun K => by have := b.area K; norm_num at this ⊢; linarith
  refine ⟨.inr ⟨squares_fat, fun e => ⟨?_, ?_⟩, fun K => ?_⟩, fun K => ?_⟩
  · have := b.lo e; norm_num at this ⊢; linarith
  · have := b.hi e; norm_num at this s2 ⊢; linarith
  · have := ar K; norm_num at this ⊢; linarith
  · have := ar K; norm_num at this ⊢; linarith

/-- `C113_unique` and `C113_reports` for that mesh: the system of solve_2d.py has a solution, and `measured_errors` reports for it the errors
of the zero vector. -/
example {m m₀ : Tri} (hm : m = mesh2 m₀) (ht : m₀.Tiles) (h1 : m₀.Coarse) (h2 : ∀ K, 1 / 1000 ≤ m₀.det K / 2) : ∃ B om', construct LinearMap.id
      (Script.d2.args m.sol2 m.dsol2) (Script.d2.dataDomain 0) = (.ok B, om') ∧
    ∃ w₁ A x ops rep rep0 z₁, scriptSetup (cfg2N 8 B) (freshWorld fun _ => 0) = (.ok .rhs, w₁) ∧ (cfg2N 8 B).Returns false A ∧
      (∀ d < A.size, A.mult x d = w₁.heap .rhs d) ∧ A.UniquelySolvable ∧
      (runOps (cfg2N 8 B) ops (freshWorld fun _ => 0)).heap (.user 1) = x ∧
      measuredErrors (cfg2N 8 B) (.user 1) (runOps (cfg2N 8 B) ops (freshWorld fun _ => 0)) = (.ok rep, z₁) ∧
      CloseReport rep rep0 ∧ 2 / 25 ≤ rep0.l2T := by
  obtain ⟨B, om', hb, hC, hB⟩ := built2N (m := m) (N := 8) (by norm_num) 0 Script.d2.fitted
  refine ⟨B, om', hb, ?_⟩
  have hPsd := m.space_psd (i := 0) fun K s t _ _ _ => le_rfl
  have hind : m.Nonneg (cfg2N 8 B).D.ind := by
    have h0 : (cfg2N 8 B).D.ind = 0 := by
      obtain ⟨b, -, e⟩ := construct_facts hb
      rw [hB.D, e]
      simp [builtOf, Script.fitted]
    intro K s t _ _ _
    rw [h0]; exact le_rfl
  obtain ⟨w₁, h, -⟩ := scriptSetup_run (C := cfg2N 8 B) (freshWorld_fresh fun _ => 0) (freshWorld_noFail _)
  obtain ⟨v₀, ops, v₁, g₀, hops, hA'⟩ := returns (cfg2N 8 B) false
  have hU := (C113_unique (C := cfg2N 8 B) hm ht h2 hb hC hB rfl hind (m.cg_primal 3 3).le (m.cg_indep 3 3) g₀ ops hops hA').2
  obtain ⟨x, hx, -⟩ := hU (w₁.heap .rhs)
  have hz : (runOps (cfg2N 8 B) [.setupFE, .write 1 x] (freshWorld fun _ => 0)).heap (.user 1) = x :=
    runOps_write (cfg2N 8 B) [.setupFE] 1 x (freshWorld fun _ => 0)
  have hz0 : (runOps (cfg2N 8 B) [.setupFE, .write 1 0] (freshWorld fun _ => 0)).heap (.user 1) = 0 :=
    runOps_write (cfg2N 8 B) [.setupFE] 1 0 (freshWorld fun _ => 0)
  have hMe : (cfg2N 8 B).Meas := Meas.of_construct hb (by norm_num) (by norm_num [Script.args, Script.T])
    ⟨hB.D, hB.T, hB.dsol, hB.samples, hB.ptsHo, hB.wsHo⟩
  obtain ⟨rep, z₁, hr⟩ := C42_returns hMe hPsd.mass (freshWorld_fresh fun _ => 0) (freshWorld_noFail fun _ => 0) [.write 1 x] (.user 1)
  obtain ⟨rep0, y₁, hr0⟩ := C42_returns hMe hPsd.mass (freshWorld_fresh fun _ => 0) (freshWorld_noFail fun _ => 0) [.write 1 0] (.user 1)
  have := C113_reports (C := cfg2N 8 B) hm ht h1 hb hC hB rfl (m.cg_primal 3 3).le (freshWorld_fresh _) h ⟨v₀, ops, v₁, g₀, hops, hA'⟩
    (freshWorld_fresh _) [.setupFE, .write 1 x] (.user 1) (by rw [← hz] at hx; exact hx) hr (freshWorld_fresh _) [.setupFE, .write 1 0] (.user 1) hz0 hr0
  exact ⟨w₁, _, x, _, rep, rep0, z₁, h, ⟨v₀, ops, v₁, g₀, hops, hA'⟩, hx, hU, hz, hr, this.1, this.2.2.1⟩

end Example
end Dxss
