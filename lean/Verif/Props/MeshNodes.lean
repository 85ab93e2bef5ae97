import Verif.Model.Meshes
import Mathlib.Data.List.Sort
import Mathlib.Data.List.Nodup
import Mathlib.Data.List.Range
import Mathlib.Tactic.Linarith
import Mathlib.Tactic.NormNum
import Mathlib.Tactic.Ring

/-!
# C50, C51: node rows and cell tables of the builders without files
-/

namespace Dxss

/-- A node as `getNodes` reports it: its tag and its three coordinates. -/
structure Node where
  tag : ℕ
  x : ℝ
  y : ℝ
  z : ℝ

/-- The two flat arrays of `getNodes`. -/
def Node.tags (nodes : List Node) : List ℕ := nodes.map Node.tag
def Node.coords (nodes : List Node) : List ℝ := nodes.flatMap fun n => [n.x, n.y, n.z]

/-- The tags are `1, …, n` in some order. -/
def Node.Contiguous (nodes : List Node) : Prop := (Node.tags nodes).Perm (List.range' 1 nodes.length)

/-! ## C51 -/

theorem dropThird_aux (nodes : List Node) (k : ℕ) :
    ((((Node.coords nodes).zipIdx (3 * k)).filter fun p => (p.2 + 1) % 3 != 0).map (·.1))
      = nodes.flatMap fun n => [n.x, n.y] := by
  induction nodes generalizing k with
  | nil => rfl
  | cons n l ih =>
    have h := ih (k + 1)
    rw [Nat.mul_add, Nat.mul_one] at h
    simp only [Node.coords, List.flatMap_cons, List.cons_append, List.nil_append, List.zipIdx_cons] at h ⊢
    rw [List.filter_cons_of_pos (by simp), List.filter_cons_of_pos (by simp; omega),
      List.filter_cons_of_neg (by simp; omega)]
    simp only [List.map_cons]
    rw [show 3 * k + 1 + 1 + 1 = 3 * k + 3 by ring, h]

theorem reshape_flatten {α : Type} {k : ℕ} (hk : 0 < k) (rows : List (List α)) (h : ∀ r ∈ rows, r.length = k) :
    reshape k rows.flatten = .ok rows := by
  have hlen : rows.flatten.length = rows.length * k := by
    induction rows with
    | nil => simp
    | cons r l ih =>
      rw [List.flatten_cons, List.length_append, ih (fun r hr => h r (by simp [hr])), h r (by simp), List.length_cons]
      ring
  unfold reshape
  rw [hlen, if_pos (Nat.mul_mod_left _ _), Nat.mul_div_cancel _ hk]
  congr 1
  apply List.ext_getElem
  · simp
  intro i h1 h2
  simp only [List.getElem_map, List.getElem_range]
  clear h1 hlen
  induction rows generalizing i with
  | nil => simp at h2
  | cons r l ih =>
    have hr := h r (by simp)
    rcases i with _ | i
    · rw [Nat.zero_mul, List.drop_zero, List.flatten_cons, List.take_append_of_le_length (by omega), List.take_of_length_le (by omega)]
      rfl
    · rw [List.flatten_cons, List.drop_append, List.drop_eq_nil_of_le (by rw [hr]; nlinarith), List.nil_append,
        show (i + 1) * k - r.length = i * k by rw [hr, Nat.add_mul, Nat.one_mul, Nat.add_sub_cancel]]
      rw [ih (fun r hr => h r (by simp [hr])) i (by simpa using h2)]
      rfl

/-- C51: dropping every third entry and reshaping gives the pairs `(x, y)` of all nodes, in order. -/
theorem C51_points (nodes : List Node) :
    reshape 2 (dropThird (Node.coords nodes)) = .ok (nodes.map fun n => [n.x, n.y]) := by
  have h := dropThird_aux nodes 0
  rw [Nat.mul_zero] at h
  unfold dropThird
  rw [h, List.flatMap_def]
  apply reshape_flatten (by norm_num)
  simp

example : reshape 2 (dropThird ([1, 2, 3, 4, 5, 6] : List ℝ)) = .ok [[1, 2], [4, 5]] :=
  C51_points [⟨1, 1, 2, 3⟩, ⟨2, 4, 5, 6⟩]

/-! ## C50 -/

theorem takeRows_ok {α : Type} (a : List α) (l : List ℕ) (h : ∀ i ∈ l, i < a.length) :
    ∃ r, takeRows a l = .ok r ∧ r.length = l.length ∧ ∀ j : ℕ, r[j]? = (l[j]?).bind fun i : ℕ => a[i]? := by
  induction l with
  | nil => exact ⟨[], rfl, rfl, by simp⟩
  | cons i l ih =>
    obtain ⟨r, hr, hl, hj⟩ := ih (fun i hi => h i (by simp [hi]))
    have hi : a[i]? = some (a[i]'(h i (by simp))) := List.getElem?_eq_getElem _
    refine ⟨a[i]'(h i (by simp)) :: r, ?_, by simp [hl], ?_⟩
    · unfold takeRows
      rw [hi]
      simp only [hr]
      rfl
    · intro j
      rcases j with _ | j
      · simp [hi]
      · simpa using hj j

theorem argsort_perm (idx : List ℕ) : (argsort idx).Perm (List.range idx.length) := List.mergeSort_perm _ _

theorem argsort_lt {idx : List ℕ} {i : ℕ} (h : i ∈ argsort idx) : i < idx.length :=
  List.mem_range.1 ((argsort_perm idx).mem_iff.1 h)

/-- `idx[argsort(idx)]` is the sorted rearrangement of `idx`. -/
theorem sorted_spec (idx : List ℕ) : ∃ r, takeRows idx (argsort idx) = .ok r ∧ r.Perm idx ∧ r.Pairwise (· ≤ ·) := by
  obtain ⟨r, hr, hl, hj⟩ := takeRows_ok idx (argsort idx) (fun i hi => argsort_lt hi)
  have hr' : r = (argsort idx).map fun i => idx.getD i 0 := by
    apply List.ext_getElem?
    intro j
    rw [hj, List.getElem?_map]
    rcases h : (argsort idx)[j]? with _ | i
    · rfl
    · have hi := argsort_lt (List.mem_of_getElem? h)
      simp [List.getElem?_eq_getElem hi]
  refine ⟨r, hr, ?_, ?_⟩
  · rw [hr']
    refine ((argsort_perm idx).map _).trans (List.Perm.of_eq ?_)
    apply List.ext_getElem
    · simp
    · intro i h1 h2
      simp [List.getElem?_eq_getElem h2]
  · rw [hr', List.pairwise_map]
    have := List.pairwise_mergeSort (le := fun i j => decide (idx.getD i 0 ≤ idx.getD j 0))
      (fun a b c h1 h2 => by simp only [decide_eq_true_eq] at *; omega)
      (fun a b => by simp only [Bool.or_eq_true, decide_eq_true_eq]; omega) (List.range idx.length)
    exact this.imp (by simp)

theorem mod_pred (W n : ℕ) (h : 0 < n) (h' : n < W) : (n + (W - 1)) % W = n - 1 := by
  rw [show n + (W - 1) = n - 1 + W by omega, Nat.add_mod_right, Nat.mod_eq_of_lt (by omega)]

theorem mod_pred_succ (W n : ℕ) (h : n < W) : ((n + (W - 1)) % W + 1) % W = n := by
  rw [Nat.mod_add_mod, show n + (W - 1) + 1 = n + W by omega, Nat.add_mod_right, Nat.mod_eq_of_lt h]

theorem pred64_eq {n : ℕ} (h : 0 < n) (h' : n < 2 ^ 64) : pred64 n = n - 1 := mod_pred _ n h h'

theorem pred64_succ {n : ℕ} (h : n < 2 ^ 64) : (pred64 n + 1) % 2 ^ 64 = n := mod_pred_succ _ n h

attribute [local irreducible] pred64

theorem contiguous_iff (nodes : List Node) (ht : ∀ n ∈ nodes, n.tag < 2 ^ 64) (hn : nodes.length < 2 ^ 64) :
    Node.Contiguous nodes ↔ ((Node.tags nodes).map pred64).Perm (List.range nodes.length) := by
  have hr : (List.range' 1 nodes.length).map pred64 = List.range nodes.length := by
    apply List.ext_getElem
    · simp
    · intro i h1 h2
      simp only [List.length_map, List.length_range'] at h1
      simp only [List.getElem_map, List.getElem_range', List.getElem_range]
      rw [pred64_eq (by omega) (by omega)]
      omega
  constructor
  · intro h
    rw [← hr]
    exact h.map _
  · intro h
    rw [← hr] at h
    obtain ⟨g, hg⟩ : ∃ g : ℕ → ℕ, ∀ n, n < 2 ^ 64 → g (pred64 n) = n := 
      ⟨fun k => (k + 1) % 2 ^ 64, fun _ h => pred64_succ h⟩
    have key : ∀ l : List ℕ, (∀ a ∈ l, a < 2 ^ 64) → (l.map pred64).map g = l := by
      intro l hl
      rw [List.map_map]
      conv_rhs => rw [← List.map_id l]
      exact List.map_congr_left fun a ha => hg a (hl a ha)
    have h1 := h.map g
    rw [key (List.range' 1 nodes.length) (fun a ha => by rw [List.mem_range'_1] at ha; omega),
      key (Node.tags nodes) (fun a ha => by
        obtain ⟨n, hn, rfl⟩ := List.mem_map.1 ha
        exact ht n hn)] at h1
    exact h1

/-- The sorted numbers form `0, …, n-1` iff the tags are contiguous. -/
theorem seqCheck_iff (nodes : List Node) (ht : ∀ n ∈ nodes, n.tag < 2 ^ 64) (hn : nodes.length < 2 ^ 64)
    {r : List ℕ} (hp : r.Perm ((Node.tags nodes).map pred64)) (hs : r.Pairwise (· ≤ ·)) :
    seqCheck r = true ↔ Node.Contiguous nodes := by
  rw [contiguous_iff nodes ht hn]
  have hl : r.length = nodes.length := by simpa [Node.tags] using hp.length_eq
  unfold seqCheck
  rw [beq_iff_eq, hl]
  constructor
  · intro h
    rw [← h]
    exact hp.symm
  · intro h
    exact (hp.trans h).eq_of_pairwise (fun a b _ _ h1 h2 => le_antisymm h1 h2) hs
      ((List.pairwise_lt_range).imp le_of_lt)

/-- The rows are indexed by tag: row `tag - 1` is the node with that tag. -/
def RowsByTag (nodes : List Node) (rows : List (List ℝ)) : Prop :=
  rows.length = nodes.length ∧ ∀ n ∈ nodes, rows[n.tag - 1]? = some [n.x, n.y]

/-- The full C50: every contiguous numbering, in any order, is accepted and gives the rows indexed by tag. -/
def C50_statement : Prop := ∀ nodes : List Node, nodes.length < 2 ^ 64 → Node.Contiguous nodes →
  ∃ rows, nodeRows seqCheck (Node.tags nodes) (Node.coords nodes) = .ok rows ∧ RowsByTag nodes rows

theorem contiguous_tag {nodes : List Node} (h : Node.Contiguous nodes) {n : Node} (hn : n ∈ nodes) :
    1 ≤ n.tag ∧ n.tag ≤ nodes.length := by
  have : n.tag ∈ List.range' 1 nodes.length := h.mem_iff.1 (List.mem_map_of_mem hn)
  rw [List.mem_range'_1] at this
  omega

/-- What `nodeRows` does with an arbitrary test. -/
theorem nodeRows_run (check : List ℕ → Bool) (nodes : List Node) :
    ∃ r rows, r.Perm ((Node.tags nodes).map pred64) ∧ r.Pairwise (· ≤ ·) ∧ rows.length = nodes.length ∧
      (∀ j : ℕ, rows[j]? = (argsort ((Node.tags nodes).map pred64))[j]?.bind
        fun (i : ℕ) => (nodes[i]?).map fun n => [n.x, n.y]) ∧
      (∀ j : ℕ, r[j]? = (argsort ((Node.tags nodes).map pred64))[j]?.bind
        fun (i : ℕ) => (nodes[i]?).map fun n => pred64 n.tag) ∧
      nodeRows check (Node.tags nodes) (Node.coords nodes)
        = if check r then .error .runtimeError else .ok rows := by
  obtain ⟨r, hr, hp, hs⟩ := sorted_spec ((Node.tags nodes).map pred64)
  have hlen : ((Node.tags nodes).map pred64).length = nodes.length := by simp [Node.tags]
  obtain ⟨rows, h1, h2, h3⟩ := takeRows_ok (nodes.map fun n => [n.x, n.y]) (argsort ((Node.tags nodes).map pred64))
    (fun i hi => by have := argsort_lt hi; simpa [Node.tags] using this)
  obtain ⟨r', g1, g2, g3⟩ := takeRows_ok ((Node.tags nodes).map pred64) (argsort ((Node.tags nodes).map pred64))
    (fun i hi => argsort_lt hi)
  have hrr : r' = r := by rw [hr] at g1; cases g1; rfl
  subst hrr
  refine ⟨r', rows, hp, hs, ?_, ?_, ?_, ?_⟩
  · rw [h2, (argsort_perm _).length_eq, List.length_range, hlen]
  · intro j; rw [h3]; simp [List.getElem?_map]
  · intro j
    rw [g3]
    simp [Node.tags, List.getElem?_map, Function.comp_def]
  · unfold nodeRows
    rw [C51_points]
    simp only [bind, Except.bind, hr]
    split
    · rfl
    · exact h1

/-- C50, what holds: the reordering is right.  With any test that lets the sorted numbers `0, …, n-1` pass, every
contiguous numbering gives the rows indexed by tag. -/
theorem C50_rows_partial {check : List ℕ → Bool} {nodes : List Node} (hn : nodes.length < 2 ^ 64)
    (hc : Node.Contiguous nodes) (hcheck : check (List.range nodes.length) = false) :
    ∃ rows, nodeRows check (Node.tags nodes) (Node.coords nodes) = .ok rows ∧ RowsByTag nodes rows := by
  have ht : ∀ n ∈ nodes, n.tag < 2 ^ 64 := fun n h => lt_of_le_of_lt (contiguous_tag hc h).2 hn
  obtain ⟨r, rows, hp, hs, hl, h1, h2, h3⟩ := nodeRows_run check nodes
  have hr : r = List.range nodes.length := by
    have := (seqCheck_iff nodes ht hn hp hs).2 hc
    rw [seqCheck, beq_iff_eq] at this
    rw [this]
    congr 1
    simpa [Node.tags] using hp.length_eq
  refine ⟨rows, by rw [h3, hr, hcheck]; rfl, hl, fun n hmem => ?_⟩
  obtain ⟨g1, g2⟩ := contiguous_tag hc hmem
  have h2' := h2 (n.tag - 1)
  rw [hr, List.getElem?_range (by omega)] at h2'
  rw [h1]
  rcases hsrt : (argsort ((Node.tags nodes).map pred64))[n.tag - 1]? with _ | i
  · rw [hsrt] at h2'; cases h2'
  rw [hsrt] at h2'
  rcases hi : nodes[i]? with _ | n'
  · simp [hi] at h2'
  simp only [Option.bind_some, hi, Option.map_some, Option.some.injEq] at h2' ⊢
  have hn' := List.mem_of_getElem? hi
  obtain ⟨k1, k2⟩ := contiguous_tag hc hn'
  rw [pred64_eq (by omega) (by omega)] at h2'
  have htag : n'.tag = n.tag := by omega
  have hnd : (Node.tags nodes).Nodup := hc.nodup_iff.2 List.nodup_range'
  have : n' = n := by
    obtain ⟨i₁, hi₁, e₁⟩ := List.getElem_of_mem hn'
    obtain ⟨i₂, hi₂, e₂⟩ := List.getElem_of_mem hmem
    have : i₁ = i₂ := by
      have h₁ : i₁ < (Node.tags nodes).length := by simpa [Node.tags] using hi₁
      have h₂ : i₂ < (Node.tags nodes).length := by simpa [Node.tags] using hi₂
      apply (hnd.getElem_inj_iff (hi := h₁) (hj := h₂)).1
      simp only [Node.tags, List.getElem_map, e₁, e₂, htag]
    subst this
    rw [← e₁, ← e₂]
  rw [this]

/-- C50, what the code does: the test is the wrong way round.  A contiguous numbering is always refused with
RuntimeError, and every other numbering is accepted. -/
theorem C50_refuses_exactly {nodes : List Node} (hn : nodes.length < 2 ^ 64) (ht : ∀ n ∈ nodes, n.tag < 2 ^ 64) :
    (Node.Contiguous nodes → nodeRows seqCheck (Node.tags nodes) (Node.coords nodes) = .error .runtimeError) ∧
    (¬ Node.Contiguous nodes → ∃ rows, nodeRows seqCheck (Node.tags nodes) (Node.coords nodes) = .ok rows) := by
  obtain ⟨r, rows, hp, hs, hl, h1, h2, h3⟩ := nodeRows_run seqCheck nodes
  have := seqCheck_iff nodes ht hn hp hs
  rw [h3]
  constructor
  · intro h; rw [if_pos (this.2 h)]
  · intro h; exact ⟨rows, by rw [if_neg (fun hc => h (this.1 hc))]⟩

/-- C50 is violated, by every contiguous numbering: the two builders never get as far as the mesh. -/
theorem C50_never {nodes : List Node} (hn : nodes.length < 2 ^ 64) (hc : Node.Contiguous nodes) (perm : List ℕ)
    (k : ℕ) (nodeTags : List ℕ) :
    builderArgs (Node.tags nodes) (Node.coords nodes) perm k nodeTags = .error .runtimeError ∧
    inclusionSquareArgs (Node.tags nodes) (Node.coords nodes) perm k nodeTags = .error .runtimeError := by
  have h := (C50_refuses_exactly hn (fun n h => lt_of_le_of_lt (contiguous_tag hc h).2 hn)).1 hc
  constructor
  · unfold builderArgs meshArgs
    rw [h]
    rfl
  · unfold inclusionSquareArgs meshArgs
    rw [h]
    rfl

namespace Example

/-- Three nodes, not in order. -/
def threeNodes : List Node := [⟨3, 1, 1, 0⟩, ⟨1, 0, 0, 0⟩, ⟨2, 1, 0, 0⟩]

theorem threeNodes_contiguous : Node.Contiguous threeNodes := by
  show [3, 1, 2].Perm [1, 2, 3]
  decide

example : ∃ rows, nodeRows (fun r => !seqCheck r) (Node.tags threeNodes) (Node.coords threeNodes) = .ok rows ∧
    RowsByTag threeNodes rows :=
  C50_rows_partial (by simp [threeNodes]) threeNodes_contiguous (by simp [seqCheck, threeNodes])

example : ¬ Node.Contiguous [⟨1, 0, 0, 0⟩, ⟨5, 1, 0, 0⟩] := by
  intro h
  have := contiguous_tag h (n := ⟨5, 1, 0, 0⟩) (by simp)
  simp at this

end Example

theorem C50_violated : ¬ C50_statement := by
  intro h
  obtain ⟨rows, e, -⟩ := h Example.threeNodes (by simp [Example.threeNodes]) Example.threeNodes_contiguous
  rw [(C50_refuses_exactly (by simp [Example.threeNodes]) (by simp [Example.threeNodes])).1
    Example.threeNodes_contiguous] at e
  cases e

/-- C50, cells: `node_tags` lists the tags of the corners of the cells; the cell table refers to the rows of these
nodes, in the order given by the permutation. -/
theorem C50_cells {cells : List (List ℕ)} {perm : List ℕ} {k : ℕ} (hk : 0 < k) (hl : ∀ c ∈ cells, c.length = k)
    (hperm : ∀ p ∈ perm, p < k) (htag : ∀ c ∈ cells, ∀ t ∈ c, 1 ≤ t ∧ t < 2 ^ 64) :
    ∃ table, cellTable perm k cells.flatten = .ok table ∧ table.length = cells.length ∧
      ∀ (i : ℕ) c row, cells[i]? = some c → table[i]? = some row → row.length = perm.length ∧
        ∀ (j p : ℕ) t, perm[j]? = some p → c[p]? = some t → row[j]? = some (t - 1) := by
  unfold cellTable
  rw [reshape_flatten hk cells hl]
  simp only [bind, Except.bind]
  have main : ∀ l : List (List ℕ), (∀ c ∈ l, c ∈ cells) →
      ∃ table, l.mapM (fun r => takeRows (r.map pred64) perm) = .ok table ∧ table.length = l.length ∧
      ∀ (i : ℕ) c row, l[i]? = some c → table[i]? = some row → row.length = perm.length ∧
        ∀ (j p : ℕ) t, perm[j]? = some p → c[p]? = some t → row[j]? = some (t - 1) := by
    intro l
    induction l with
    | nil => intro _; exact ⟨[], rfl, rfl, by simp⟩
    | cons c l ih =>
      intro hsub
      have hc := hsub c (by simp)
      obtain ⟨table, e, h1, h2⟩ := ih fun c h => hsub c (by simp [h])
      obtain ⟨r, hr, g1, g2⟩ := takeRows_ok (c.map pred64) perm
        (fun i hi => by rw [List.length_map, hl c hc]; exact hperm i hi)
      refine ⟨r :: table, ?_, by simp [h1], ?_⟩
      · rw [List.mapM_cons, hr, e]; rfl
      · intro i c' row hi hrow
        rcases i with _ | i
        · simp only [List.getElem?_cons_zero, Option.some.injEq] at hi hrow
          subst hi hrow
          refine ⟨g1, fun j p t hp ht => ?_⟩
          have := htag c hc t (List.mem_of_getElem? ht)
          rw [g2, hp, Option.bind_some, List.getElem?_map, ht, Option.map_some, pred64_eq (by omega) this.2]
        · simp only [List.getElem?_cons_succ] at hi hrow
          exact h2 i c' row hi hrow
  exact main cells fun c h => h

/-- C50, cells and rows together, with a test that lets contiguous numberings pass: corner `j` of cell `i` has the
coordinates of the node whose tag gmsh lists there. -/
theorem C50_mesh_partial {check : List ℕ → Bool} {nodes : List Node} (hn : nodes.length < 2 ^ 64)
    (hc : Node.Contiguous nodes) (hcheck : check (List.range nodes.length) = false)
    {cells : List (List ℕ)} {perm : List ℕ} {k : ℕ} (hk : 0 < k) (hl : ∀ c ∈ cells, c.length = k)
    (hperm : ∀ p ∈ perm, p < k) (hcells : ∀ c ∈ cells, ∀ t ∈ c, t ∈ Node.tags nodes) :
    ∃ rows table, meshArgs check (Node.tags nodes) (Node.coords nodes) perm k cells.flatten = .ok (rows, table) ∧
      table.length = cells.length ∧
      ∀ (i : ℕ) c row, cells[i]? = some c → table[i]? = some row → row.length = perm.length ∧
        ∀ (j p : ℕ) n, perm[j]? = some p → n ∈ nodes → c[p]? = some n.tag →
          ∃ v, row[j]? = some v ∧ rows[v]? = some [n.x, n.y] := by
  obtain ⟨rows, e1, hrows⟩ := C50_rows_partial hn hc hcheck
  obtain ⟨table, e2, h1, h2⟩ := C50_cells hk hl hperm (cells := cells) (fun c h t ht => by
    obtain ⟨n, hn', rfl⟩ := List.mem_map.1 (hcells c h t ht)
    have := contiguous_tag hc hn'
    omega)
  refine ⟨rows, table, ?_, h1, ?_⟩
  · unfold meshArgs
    rw [e1, e2]
    rfl
  · intro i c row hi hrow
    obtain ⟨h3, h4⟩ := h2 i c row hi hrow
    exact ⟨h3, fun j p n hp hmem ht => ⟨n.tag - 1, h4 j p n.tag hp ht, hrows.2 n hmem⟩⟩

namespace Example

/-- One triangle with a permutation of its corners. -/
example : ∃ rows table, meshArgs (fun r => !seqCheck r) (Node.tags threeNodes) (Node.coords threeNodes) [0, 2, 1] 3
    [[3, 1, 2]].flatten = .ok (rows, table) ∧ table.length = 1 := by
  obtain ⟨rows, table, h1, h2, -⟩ := C50_mesh_partial (check := fun r => !seqCheck r) (nodes := threeNodes)
    (cells := [[3, 1, 2]]) (perm := [0, 2, 1]) (k := 3)
    (by simp [threeNodes]) threeNodes_contiguous (by simp [seqCheck, threeNodes])
    (by norm_num) (by simp) (by simp) (by simp [threeNodes, Node.tags])
  exact ⟨rows, table, h1, h2⟩

end Example

end Dxss
