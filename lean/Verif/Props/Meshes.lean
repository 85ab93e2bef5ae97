import Verif.Model.Meshes
import Verif.Lemmas.Monad
import Mathlib.Data.List.Sort
import Mathlib.Tactic.Linarith
import Mathlib.Tactic.NormNum

/-!
# C49, C56, C57: mesh hierarchies and the installed version
-/

namespace Dxss
set_option linter.unusedSectionVars false

/-! ## C56: versions -/

/-- Entry `i` of a release number; missing entries count as zero. -/
def PyVersion.part (v : PyVersion) (i : ℕ) : ℕ := v.release.getD i 0

/-- A version is ordered before 0.7: no epoch, and either an earlier release number, or a pre-release or a development
release of 0.7. -/
def PyVersion.Before07 (v : PyVersion) : Prop :=
  v.epoch = 0 ∧ v.part 0 = 0 ∧ (v.part 1 < 7 ∨
    v.part 1 = 7 ∧ (∀ i, 2 ≤ i → v.part i = 0) ∧ (v.pre ≠ none ∨ v.post = none ∧ v.dev ≠ none))

theorem stripZeros_concat_zero (l : List ℕ) : stripZeros (l ++ [0]) = stripZeros l := by
  simp [stripZeros]

theorem stripZeros_concat_pos (l : List ℕ) {n : ℕ} (h : n ≠ 0) : stripZeros (l ++ [n]) = l ++ [n] := by
  simp [stripZeros, h]

theorem stripZeros_getD (l : List ℕ) (i : ℕ) : (stripZeros l).getD i 0 = l.getD i 0 := by
  induction l using List.reverseRecOn with
  | nil => simp [stripZeros]
  | append_singleton l n ih =>
    by_cases h : n = 0
    · subst h
      rw [stripZeros_concat_zero, ih]
      simp only [List.getD_eq_getElem?_getD, List.getElem?_append]
      split
      · rfl
      · rw [List.getElem?_eq_none (by omega)]
        rcases hi : i - l.length with _ | k <;> simp
    · rw [stripZeros_concat_pos l h]

theorem stripZeros_last (l : List ℕ) : stripZeros l = [] ∨ ∃ l' n, n ≠ 0 ∧ stripZeros l = l' ++ [n] := by
  induction l using List.reverseRecOn with
  | nil => left; simp [stripZeros]
  | append_singleton l n ih =>
    by_cases h : n = 0
    · subst h; rw [stripZeros_concat_zero]; exact ih
    · right; exact ⟨l, n, h, stripZeros_concat_pos l h⟩

theorem release_cmp (l : List ℕ) :
    (tupleCmp compare (stripZeros l) [0, 7] = .lt ↔ l.getD 0 0 = 0 ∧ l.getD 1 0 < 7) ∧
    (tupleCmp compare (stripZeros l) [0, 7] = .eq ↔ l.getD 0 0 = 0 ∧ l.getD 1 0 = 7 ∧ ∀ i, 2 ≤ i → l.getD i 0 = 0) := by
  have hg := stripZeros_getD l
  have hlast := stripZeros_last l
  simp only [← hg]
  generalize stripZeros l = r at *
  match r, hlast with
  | [], _ => simp [tupleCmp]
  | [a], h =>
    rcases h with h | ⟨l', n, hn, h⟩
    · cases h
    · have ha : a ≠ 0 := by
        rcases l' with _ | ⟨b, l'⟩ <;> simp at h
        omega
      rcases Nat.lt_trichotomy a 0 with h' | h' | h'
      · omega
      · omega
      · have : compare a 0 = .gt := Nat.compare_eq_gt.2 h'
        simp [tupleCmp, this, ha]
  | [a, b], h =>
    by_cases ha : a = 0
    · subst ha
      rcases lt_trichotomy b 7 with h' | h' | h'
      · simp [tupleCmp, Nat.compare_eq_lt.2 h', h']; omega
      · subst h'
        simp [tupleCmp]
        intro i hi
        rcases i with _ | _ | i <;> simp_all
      · simp [tupleCmp, Nat.compare_eq_gt.2 h']; omega
    · simp [tupleCmp, Nat.compare_eq_gt.2 (Nat.pos_of_ne_zero ha), ha]
  | a :: b :: c :: r, h =>
    by_cases ha : a = 0
    · subst ha
      rcases lt_trichotomy b 7 with h' | h' | h'
      · simp [tupleCmp, Nat.compare_eq_lt.2 h', h']; omega
      · subst h'
        simp [tupleCmp]
        rcases h with h | ⟨l', n, hn, h⟩
        · cases h
        · refine ⟨l'.length, ?_, ?_⟩
          · have := congrArg List.length h
            simp at this; omega
          · have : (0 :: 7 :: c :: r : List ℕ)[l'.length]? = some n := by rw [h]; simp
            rw [this]; simpa using hn
      · simp [tupleCmp, Nat.compare_eq_gt.2 h']; omega
    · simp [tupleCmp, Nat.compare_eq_gt.2 (Nat.pos_of_ne_zero ha), ha]

/-- C56: the comparison with 0.7, for every version number of PEP 440. -/
theorem C56_order (v : PyVersion) : v.ltB v07 = true ↔ v.Before07 := by
  obtain ⟨h1, h2⟩ := release_cmp v.release
  have hs : stripZeros v07.release = [0, 7] := by simp [v07, stripZeros]
  unfold PyVersion.ltB VersionKey.cmp PyVersion.Before07 PyVersion.part
  simp only [PyVersion.key, hs]
  rw [beq_iff_eq]
  by_cases he : v.epoch = 0
  · simp only [he, true_and]
    rw [show compare (0 : ℕ) v07.epoch = .eq from by simp [v07]]
    simp only [Ordering.eq_then]
    rcases hc : tupleCmp compare (stripZeros v.release) [0, 7] with _ | _ | _
    · have := h1.1 hc
      simp only [Ordering.lt_then, true_iff]
      exact ⟨this.1, .inl this.2⟩
    · have := h2.1 hc
      simp only [this.1, this.2.1, true_and, Ordering.eq_then, lt_self_iff_false, false_or]
      rcases v.pre with _ | p <;> rcases v.post with _ | n <;> rcases v.dev with _ | d <;> rcases v.loc with _ | l <;>
        simp [v07, Ext.cmp] <;> exact this.2.2
    · simp only [Ordering.gt_then, reduceCtorEq, false_iff]
      rintro ⟨h3, h4 | ⟨h4, h5, -⟩⟩
      · have := h1.2 ⟨h3, h4⟩
        rw [hc] at this; cases this
      · have := h2.2 ⟨h3, h4, h5⟩
        rw [hc] at this; cases this
  · rw [show compare v.epoch v07.epoch = .gt from Nat.compare_eq_gt.2 (Nat.pos_of_ne_zero he)]
    simp [he]

/-- C56: the argument passed to `compute_incident_entities`. -/
theorem C56_argument (v : PyVersion) :
    (incidentArg .dataAllAround v = .mesh ↔ v.Before07) ∧ (incidentArg .dataAllAround v = .topology ↔ ¬ v.Before07) ∧
    ∀ b, b ≠ .dataAllAround → incidentArg b v = .mesh := by
  have h := C56_order v
  refine ⟨?_, ?_, fun b hb => ?_⟩
  · rw [← h]; unfold incidentArg; simp only []; split <;> simp_all
  · rw [← h]; unfold incidentArg; simp only []; split <;> simp_all
  · cases b <;> first | rfl | exact absurd rfl hb

/-- C56 for plain release numbers `a.b.c…`: only the first two numbers matter. -/
theorem C56_releases (release : List ℕ) :
    ({ release := release } : PyVersion).Before07 ↔ release.getD 0 0 = 0 ∧ release.getD 1 0 < 7 := by
  simp [PyVersion.Before07, PyVersion.part]

example : ({ release := [0, 6, 0] } : PyVersion).Before07 := by simp [PyVersion.Before07, PyVersion.part]
example : ¬ ({ release := [0, 10] } : PyVersion).Before07 := by simp [PyVersion.Before07, PyVersion.part]
example : ({ release := [0, 7, 0], dev := some 0 } : PyVersion).Before07 := by
  simp [PyVersion.Before07, PyVersion.part]
  intro i hi; rcases i with _ | _ | _ | i <;> simp_all
example : ¬ ({ release := [0, 7], post := some 1, dev := some 0 } : PyVersion).Before07 := by
  simp [PyVersion.Before07, PyVersion.part]

theorem tupleCmp_self {c : ℕ → ℕ → Ordering} (h : ∀ a, c a a = .eq) : ∀ l, tupleCmp c l l = .eq
  | [] => rfl
  | a :: l => by rw [tupleCmp, h, tupleCmp_self h l]; rfl

/-- C56: the versions made from one release number are ordered as PEP 440 prescribes: development releases, alpha, beta and release
candidates, the release, post-releases; within each of these groups by their numbers. -/
theorem C56_prereleases (r : List ℕ) (i j : ℕ) :
    let V (p : Option (PreKind × ℕ)) (q d : Option ℕ) : PyVersion := { release := r, pre := p, post := q, dev := d }
    (V none none (some i)).ltB (V (some (.a, j)) none none) = true ∧
    (V (some (.a, i)) none none).ltB (V (some (.b, j)) none none) = true ∧
    (V (some (.b, i)) none none).ltB (V (some (.rc, j)) none none) = true ∧
    (V (some (.rc, i)) none none).ltB (V none none none) = true ∧
    (V none none none).ltB (V none (some j) none) = true ∧
    (∀ k, (V (some (k, i)) none none).ltB (V (some (k, j)) none none) = true ↔ i < j) ∧
    ((V none none (some i)).ltB (V none none (some j)) = true ↔ i < j) ∧
    ((V none (some i) none).ltB (V none (some j) none) = true ↔ i < j) ∧
    (V none (some i) (some j)).ltB (V none (some i) none) = true ∧
    (∀ k, (V (some (k, i)) none (some j)).ltB (V (some (k, i)) none none) = true) := by
  have h := tupleCmp_self (c := compare) (fun a => by simp) (stripZeros r)
  have hk : ∀ k : PreKind, compare k.toNat k.toNat = .eq := fun k => by simp
  simp only [PyVersion.ltB, VersionKey.cmp, PyVersion.key, h, beq_iff_eq]
  refine ⟨?_, ?_, ?_, ?_, ?_, ?_, ?_, ?_, ?_, ?_⟩ <;>
    simp [Ext.cmp, preCmp, PreKind.toNat, Ordering.then, Nat.compare_eq_lt, hk] <;>
    (try cases hc : compare i j <;> simp_all [Nat.compare_eq_lt, Nat.compare_eq_gt] <;> omega)

/-! ## C49: hierarchies -/

variable {Mesh : Type} [DecidableEq Mesh] {L : MeshLib Mesh}

/-- The first coordinate is non-negative on the whole mesh. -/
def MeshLib.NonNeg (L : MeshLib Mesh) (m : Mesh) : Prop := ∀ c < L.numCells m, ∀ x ∈ L.verts m c, 0 ≤ x 0

/-- Every edge belongs to a cell. -/
def MeshLib.NoDanglingEdge (L : MeshLib Mesh) (m : Mesh) : Prop :=
  ∀ e < L.numEdges m, ∃ c < L.numCells m, L.incident m c e = true

/-- The marked edges of a mesh: those of the cells whose vertices all have a non-negative first coordinate. -/
def MeshLib.IsMarked (L : MeshLib Mesh) (m : Mesh) (edges : List ℕ) : Prop :=
  ∀ e, e ∈ edges ↔ e < L.numEdges m ∧ ∃ c < L.numCells m, (∀ x ∈ L.verts m c, 0 ≤ x 0) ∧ L.incident m c e = true

/-- `m'` is the refinement of `m` the builder makes. -/
def MeshLib.Refines (L : MeshLib Mesh) (b : Builder) (m m' : Mesh) : Prop :=
  if b = .data3d then m' = L.refine m none
  else ∃ edges, L.IsMarked m edges ∧ m' = L.refine m (some edges)

/-- The installed library accepts the argument the builder passes. -/
def MeshLib.Accepts (L : MeshLib Mesh) (b : Builder) (v : PyVersion) : Prop :=
  b = .data3d ∨ (incidentArg b v = .topology ↔ L.takesTopology = true)

theorem createEntities_run (m : Mesh) (d : ℕ) (s : Created Mesh) :
    createEntities m d s = (.ok (), (m, d) :: s) := rfl

theorem incidentEdges_ok {m : Mesh} {arg : MeshArg} {s : Created Mesh} (ha : arg = .topology ↔ L.takesTopology = true)
    (hm : (m, 1) ∈ s) (cells : List ℕ) :
    incidentEdges L m arg cells s
      = (.ok ((List.range (L.numEdges m)).filter fun e => cells.any fun c => L.incident m c e), s) := by
  unfold incidentEdges
  rw [M.bind_ok (M.get_run s), if_neg (by simp [ha]), if_pos hm]
  rfl

theorem isMarked_edges (m : Mesh) : L.IsMarked m ((List.range (L.numEdges m)).filter fun e =>
    (locateCells L m refineAll).any fun c => L.incident m c e) := by
  intro e
  simp only [List.mem_filter, List.mem_range, List.any_eq_true, locateCells, List.all_eq_true, refineAll,
    decide_eq_true_eq]
  constructor
  · rintro ⟨h, c, ⟨h1, h2⟩, h3⟩; exact ⟨h, c, h1, h2, h3⟩
  · rintro ⟨h, c, h1, h2, h3⟩; exact ⟨h, c, ⟨h1, h2⟩, h3⟩

theorem refineStep_ok {b : Builder} {v : PyVersion} (h : L.Accepts b v) (m : Mesh) (s : Created Mesh) :
    ∃ m' s', refineStep L b v m s = (.ok m', s') ∧ L.Refines b m m' := by
  have main : b ≠ .data3d → ∃ m' s', (do
      createEntities m 1
      let cells := locateCells L m refineAll
      let edges ← incidentEdges L m (incidentArg b v) cells
      refineMesh L m (some edges) : M (Created Mesh) Mesh) s = (.ok m', s') ∧ L.Refines b m m' := by
    intro hb
    have ha := h.resolve_left hb
    refine ⟨L.refine m (some ((List.range (L.numEdges m)).filter fun e =>
      (locateCells L m refineAll).any fun c => L.incident m c e)), (m, 1) :: s, ?_, ?_⟩
    rotate_left
    · unfold MeshLib.Refines
      rw [if_neg hb]
      exact ⟨_, isMarked_edges m, rfl⟩
    · rw [M.bind_ok (createEntities_run m 1 s), M.bind_ok (incidentEdges_ok ha (by simp) _)]
      unfold refineMesh
      rw [M.bind_ok (M.get_run _), if_pos (by simp)]
      rfl
  cases b with
  | data3d =>
    refine ⟨L.refine m none, (m, 1) :: (m, 2) :: s, ?_, by simp [MeshLib.Refines]⟩
    unfold refineStep
    simp only []
    rw [M.bind_ok (createEntities_run m 2 s), M.bind_ok (createEntities_run m 1 _)]
    unfold refineMesh
    rw [M.bind_ok (M.get_run _), if_pos (by simp)]
    rfl
  | hierarchy => exact main (by simp)
  | nonconvex => exact main (by simp)
  | fittedDisc => exact main (by simp)
  | dataAllAround => exact main (by simp)

/-- Each mesh after the first is a refinement of its predecessor. -/
def MeshLib.Chain (L : MeshLib Mesh) (b : Builder) (l : List Mesh) : Prop :=
  ∀ i m m', l[i]? = some m → l[i + 1]? = some m' → L.Refines b m m'

/-- C49: a builder returns `n_ref + 1` meshes, first the initial one, each later one the refinement of its
predecessor. -/
theorem C49_hierarchy {b : Builder} {v : PyVersion} (h : L.Accepts b v) (n : ℕ) (m₀ : Mesh) (s : Created Mesh) :
    ∃ l s', hierarchy L b v n m₀ s = (.ok l, s') ∧ l.length = n + 1 ∧ l[0]? = some m₀ ∧ L.Chain b l := by
  have main : ∀ (k : List ℕ) (acc : List Mesh) (m : Mesh) (s : Created Mesh), acc.length ≠ 0 → acc[0]? = some m₀ →
      acc[acc.length - 1]? = some m → L.Chain b acc →
      ∃ (m' : Mesh) (l : List Mesh) (s' : Created Mesh),
        M.forAcc k (m, acc) (fun acc _i => do
          let m ← refineStep L b v acc.1
          return (m, acc.2 ++ [m])) s = (.ok (m', l), s') ∧ l.length = acc.length + k.length ∧ l[0]? = some m₀ ∧
        L.Chain b l := by
    intro k
    induction k with
    | nil => intro acc m s h1 h2 h3 h4; exact ⟨m, acc, s, rfl, rfl, h2, h4⟩
    | cons a k ih =>
      intro acc m s h1 h2 h3 h4
      obtain ⟨m', s', e, hr⟩ := refineStep_ok h m s
      obtain ⟨m'', l, s'', e', g1, g2, g3⟩ := ih (acc ++ [m']) m' s' (by simp)
        (by rw [List.getElem?_append_left (by omega)]; exact h2) (by simp) (by
          intro i a a' ha ha'
          by_cases hi : i + 1 < acc.length
          · rw [List.getElem?_append_left (by omega)] at ha ha'
            exact h4 i a a' ha ha'
          · have hi' : i + 1 = acc.length := by
              by_contra hc
              rw [List.getElem?_eq_none (by simp; omega)] at ha'
              cases ha'
            rw [List.getElem?_append_left (by omega), show i = acc.length - 1 by omega, h3] at ha
            rw [hi', List.getElem?_concat_length] at ha'
            cases ha; cases ha'
            exact hr)
      refine ⟨m'', l, s'', ?_, by simp [g1]; omega, g2, g3⟩
      unfold M.forAcc
      rw [M.bind_ok (a := (m', acc ++ [m'])) (s' := s') (by beta_reduce; rw [M.bind_ok e]; rfl)]
      exact e'
  obtain ⟨m', l, s', e, h1, h2, h3⟩ := main (List.range n) [m₀] m₀ s (by simp) rfl rfl (by
    intro i a a' _ ha'; rw [List.getElem?_eq_none (by simp)] at ha'; cases ha')
  refine ⟨l, s', ?_, by simp [h1]; omega, h2, h3⟩
  unfold hierarchy
  rw [M.bind_ok e]
  rfl

/-- C49: where the first coordinate is non-negative, all cells are located and all edges are marked. -/
theorem C49_all_marked {m : Mesh} (h : L.NonNeg m) (hd : L.NoDanglingEdge m) :
    locateCells L m refineAll = List.range (L.numCells m) ∧
    ∀ edges, L.IsMarked m edges ↔ ∀ e, e ∈ edges ↔ e < L.numEdges m := by
  constructor
  · unfold locateCells
    rw [List.filter_eq_self]
    intro c hc
    rw [List.all_eq_true]
    intro x hx
    exact decide_eq_true (h c (List.mem_range.1 hc) x hx)
  · intro edges
    refine forall_congr' fun e => ?_
    have : (e < L.numEdges m ∧ ∃ c < L.numCells m, (∀ x ∈ L.verts m c, 0 ≤ x 0) ∧ L.incident m c e = true)
        ↔ e < L.numEdges m :=
      ⟨fun h => h.1, fun he => ⟨he, by
        obtain ⟨c, hc, hi⟩ := hd e he
        exact ⟨c, hc, h c hc, hi⟩⟩⟩
    rw [this]

/-- C49: if refinement keeps the first coordinate non-negative and produces no dangling edges, every refinement in
the hierarchy marks exactly the set of all edges. -/
theorem C49_uniform {b : Builder} (hb : b ≠ .data3d) {l : List Mesh} (hl : L.Chain b l)
    {m₀ : Mesh} (h0 : l[0]? = some m₀) (hn : L.NonNeg m₀) (hd : L.NoDanglingEdge m₀)
    (hkeep : ∀ m edges, L.NonNeg m → L.NoDanglingEdge m →
      L.NonNeg (L.refine m (some edges)) ∧ L.NoDanglingEdge (L.refine m (some edges))) :
    ∀ (i : ℕ) m m', l[i]? = some m → l[i + 1]? = some m' →
      ∃ edges, (∀ e, e ∈ edges ↔ e < L.numEdges m) ∧ m' = L.refine m (some edges) := by
  have key : ∀ (i : ℕ) m, l[i]? = some m → L.NonNeg m ∧ L.NoDanglingEdge m := by
    intro i
    induction i with
    | zero => intro m hm; rw [h0] at hm; cases hm; exact ⟨hn, hd⟩
    | succ i ih =>
      intro m hm
      have hi : i < l.length := by
        by_contra hc
        rw [List.getElem?_eq_none (by omega)] at hm
        cases hm
      have hm' := List.getElem?_eq_getElem hi
      have hr := hl i _ m hm' hm
      unfold MeshLib.Refines at hr
      rw [if_neg hb] at hr
      obtain ⟨edges, -, rfl⟩ := hr
      exact hkeep _ _ (ih _ hm').1 (ih _ hm').2
  intro i m m' hm hm'
  have hr := hl i m m' hm hm'
  unfold MeshLib.Refines at hr
  rw [if_neg hb] at hr
  obtain ⟨edges, hE, rfl⟩ := hr
  obtain ⟨h1, h2⟩ := key i m hm
  exact ⟨edges, ((C49_all_marked h1 h2).2 edges).1 hE, rfl⟩

theorem forAcc_snoc {σ α β : Type} (l : List α) (a : α) (b : β) (f : β → α → M σ β) (s : σ) :
    M.forAcc (l ++ [a]) b f s = (M.forAcc l b f >>= fun b => f b a) s := by
  induction l generalizing b s with
  | nil =>
    simp only [List.nil_append, M.forAcc, M.bind_run, M.ret_run]
    rcases f b a s with ⟨_ | _, _⟩ <;> simp
  | cons c l ih =>
    simp only [List.cons_append, M.forAcc, M.bind_run]
    rcases f b c s with ⟨e | b', s'⟩
    · rfl
    · have := ih b' s'
      simp only [M.bind_run] at this
      exact this

/-- C49: `get_mesh_convex` returns one mesh for each `j < n_ref`, built with size factor `h / 2^j`; it fails only if one
of these builds fails. -/
theorem C49_convex {σ : Type} (create : ℝ → M σ Mesh) (n : ℕ) (h : ℝ) (s : σ) :
    (∀ l s', getMeshConvex create n h s = (.ok l, s') → l.length = n ∧ ∃ st : ℕ → σ, st 0 = s ∧ st n = s' ∧
      ∀ j m, l[j]? = some m → create (h / 2 ^ j) (st j) = (.ok m, st (j + 1))) ∧
    (∀ e s', getMeshConvex create n h s = (.error e, s') →
      ∃ j < n, ∃ s₁, create (h / 2 ^ j) s₁ = (.error e, s')) := by
  have main : ∀ n : ℕ, (∀ l s', getMeshConvex create n h s = (.ok l, s') → l.length = n ∧ ∃ st : ℕ → σ, st 0 = s ∧ st n = s' ∧
      ∀ j m, l[j]? = some m → create (h / 2 ^ j) (st j) = (.ok m, st (j + 1))) ∧
    (∀ e s', getMeshConvex create n h s = (.error e, s') → ∃ j < n, ∃ s₁, create (h / 2 ^ j) s₁ = (.error e, s')) := by
    intro n
    induction n with
    | zero =>
      refine ⟨fun l s' e => ?_, fun e s' e' => ?_⟩
      · have : l = [] ∧ s' = s := by
          unfold getMeshConvex at e
          simp [M.forAcc] at e
          exact ⟨e.1, e.2.symm⟩
        obtain ⟨rfl, rfl⟩ := this
        exact ⟨rfl, fun _ => s', rfl, rfl, by simp⟩
      · unfold getMeshConvex at e'
        simp [M.forAcc] at e'
    | succ n ih =>
      have hsplit : getMeshConvex create (n + 1) h s
          = (do let acc ← getMeshConvex create n h
                let m ← create (h / 2 ^ n)
                return acc ++ [m]) s := by
        unfold getMeshConvex
        rw [List.range_succ, forAcc_snoc]
      rw [hsplit]
      rcases hg : getMeshConvex create n h s with ⟨e₁ | acc, s₁⟩
      · rw [M.bind_error hg]
        refine ⟨fun l s' e => ?_, fun e s' e' => ?_⟩
        · cases e
        · cases e'
          obtain ⟨j, hj, s₂, h2⟩ := ih.2 _ _ hg
          exact ⟨j, by omega, s₂, h2⟩
      · rw [M.bind_ok hg]
        obtain ⟨hlen, st, hst0, hstn, hst⟩ := ih.1 _ _ hg
        rcases hc : create (h / 2 ^ n) s₁ with ⟨e₂ | m, s₂⟩
        · rw [M.bind_error hc]
          refine ⟨fun l s' e => ?_, fun e s' e' => ?_⟩
          · cases e
          · cases e'
            exact ⟨n, by omega, s₁, hc⟩
        · rw [M.bind_ok hc]
          refine ⟨fun l s' e => ?_, fun e s' e' => ?_⟩
          · cases e
            refine ⟨by simp [hlen], fun j => if j ≤ n then st j else s₂, by simp [hst0], by simp, fun j a ha => ?_⟩
            by_cases hj : j < n
            · rw [List.getElem?_append_left (by omega)] at ha
              have := hst j a ha
              simpa [show j ≤ n by omega, show j + 1 ≤ n by omega] using this
            · have hj' : j = n := by
                by_contra hne
                rw [List.getElem?_eq_none (by simp; omega)] at ha
                cases ha
              subst hj'
              rw [← hlen, List.getElem?_concat_length] at ha
              cases ha
              simp only [le_refl, if_true, hstn, show ¬ j + 1 ≤ j by omega, if_false]
              exact hc
          · cases e'
  exact main n

namespace Example

/-- A library whose mesh number `k` is an interval with `k + 1` cells `[j, j+1]`; "edge" `j` is the point `j`. -/
def lineLib (takes : Bool) : MeshLib ℕ where
  numCells := fun k => k + 1
  verts := fun _ c => [fun _ => (c : ℝ), fun _ => (c : ℝ) + 1]
  numEdges := fun k => k + 2
  incident := fun _ c e => e == c || e == c + 1
  refine := fun k _ => 2 * k + 1
  takesTopology := takes

theorem lineLib_nonNeg (t : Bool) (m : ℕ) : (lineLib t).NonNeg m := by
  intro c _ x hx
  simp only [lineLib, List.mem_cons, List.not_mem_nil, or_false] at hx
  rcases hx with rfl | rfl <;> positivity

theorem lineLib_edges (t : Bool) (m : ℕ) : (lineLib t).NoDanglingEdge m := by
  intro e he
  simp only [lineLib] at he ⊢
  rcases Nat.lt_or_ge e (m + 1) with h | h
  · exact ⟨e, h, by simp⟩
  · exact ⟨m, by omega, by simp; omega⟩

/-- C49 applies to a real hierarchy with three refinements, of 1, 2, 4 and 8 cells. -/
example (s : Created ℕ) : ∃ l s', hierarchy (lineLib false) .hierarchy { release := [0, 6] } 3 0 s = (.ok l, s') ∧
    l.length = 4 ∧ l[0]? = some 0 ∧ (lineLib false).Chain .hierarchy l :=
  C49_hierarchy (.inr (by simp [incidentArg, lineLib])) 3 0 s

/-- C49 for `get_mesh_convex` with a builder that counts its calls. -/
example : getMeshConvex (fun _ => do let s ← M.get; M.modify (· + 1); return s) 3 1 0
    = (.ok [0, 1, 2], (3 : ℕ)) := rfl

end Example

/-! ## C57: versions of DOLFINx

`pyproject.toml:24` declares `fenics-dolfinx>=0.6`.  The signature of `compute_incident_entities` changed in 0.7 from a
mesh to a topology. -/

/-- The installed version satisfies the declared requirement (release numbers). -/
def PyVersion.AtLeast06 (v : PyVersion) : Prop := v.epoch ≠ 0 ∨ v.part 0 ≠ 0 ∨ 6 ≤ v.part 1

/-- The library of a released version: from 0.7 on it takes a topology. -/
def MeshLib.Released (L : MeshLib Mesh) (v : PyVersion) : Prop :=
  v.pre = none ∧ v.post = none ∧ v.dev = none ∧
  (L.takesTopology = true ↔ ¬ (v.epoch = 0 ∧ v.part 0 = 0 ∧ v.part 1 < 7))

/-- The full C57: every builder works with every released version the package admits. -/
def C57_statement : Prop := ∀ (L : MeshLib ℕ) (v : PyVersion), v.AtLeast06 → L.Released v → ∀ (b : Builder) (n : ℕ) m₀ s,
  ∃ l s', hierarchy L b v n m₀ s = (.ok l, s')

theorem released_accepts {v : PyVersion} (h : L.Released v) (b : Builder) :
    L.Accepts b v ↔ b = .data3d ∨ b = .dataAllAround ∨ L.takesTopology = false := by
  obtain ⟨h1, h2, h3, h4⟩ := h
  have hb : v.Before07 ↔ (v.epoch = 0 ∧ v.part 0 = 0 ∧ v.part 1 < 7) := by
    simp [PyVersion.Before07, h1, h2, h3]
  unfold MeshLib.Accepts
  by_cases hd : b = .data3d
  · simp [hd]
  by_cases ha : b = .dataAllAround
  · subst ha
    simp only [hd, false_or, true_or, iff_true]
    rw [(C56_argument v).2.1, hb, h4]
  · rw [(C56_argument v).2.2 b ha]
    simp [hd, ha]

/-- The refinement step fails with TypeError if the library rejects the argument. -/
theorem refineStep_typeError {b : Builder} {v : PyVersion} (h : ¬ L.Accepts b v) (m : Mesh) (s : Created Mesh) :
    refineStep L b v m s = (.error .typeError, (m, 1) :: s) := by
  unfold MeshLib.Accepts at h
  push Not at h
  have h2 : (incidentArg b v = .topology) ≠ (L.takesTopology = true) := by
    intro he
    rcases h.2 with ⟨h3, h4⟩ | ⟨h3, h4⟩
    · exact h4 (he ▸ h3)
    · exact h3 (he ▸ h4)
  have h1 := h.1
  cases b <;> first | exact absurd rfl h1 | skip
  all_goals
    unfold refineStep
    simp only []
    rw [M.bind_ok (createEntities_run m 1 s)]
    apply M.bind_error
    unfold incidentEdges
    rw [M.bind_ok (M.get_run _), if_pos h2]
    rfl

/-- C57, exactly what happens: a builder works iff it makes no refinement, is one of the two that follow the library, or
the library is older than 0.7; otherwise it raises TypeError. -/
theorem C57_partial {v : PyVersion} (h : L.Released v) (b : Builder) (n : ℕ) (m₀ : Mesh) (s : Created Mesh) :
    (∃ l s', hierarchy L b v n m₀ s = (.ok l, s') ∧ l.length = n + 1 ∧ l[0]? = some m₀ ∧ L.Chain b l) ∧
      (n = 0 ∨ b = .data3d ∨ b = .dataAllAround ∨ (v.epoch = 0 ∧ v.part 0 = 0 ∧ v.part 1 < 7)) ∨
    (∃ s', hierarchy L b v n m₀ s = (.error .typeError, s')) ∧ n ≠ 0 ∧ b ≠ .data3d ∧ b ≠ .dataAllAround ∧
      ¬ (v.epoch = 0 ∧ v.part 0 = 0 ∧ v.part 1 < 7) := by
  have ht := h.2.2.2
  by_cases hA : L.Accepts b v
  · left
    refine ⟨C49_hierarchy hA n m₀ s, ?_⟩
    rcases (released_accepts h b).1 hA with h1 | h1 | h1
    · exact .inr (.inl h1)
    · exact .inr (.inr (.inl h1))
    · refine .inr (.inr (.inr ?_))
      rw [h1] at ht
      by_contra hc
      exact absurd (ht.2 hc) (by simp)
  · have hA' := mt (released_accepts h b).2 hA
    push Not at hA'
    obtain ⟨h1, h2, h3⟩ := hA'
    have h4 := ht.1 (by simpa using h3)
    rcases n with _ | n
    · left
      refine ⟨⟨[m₀], s, rfl, rfl, rfl, ?_⟩, .inl rfl⟩
      intro i a a' _ ha'
      rw [List.getElem?_eq_none (by simp)] at ha'
      cases ha'
    · right
      refine ⟨⟨(m₀, 1) :: s, ?_⟩, by simp, h1, h2, h4⟩
      unfold hierarchy
      apply M.bind_error
      rw [List.range_succ_eq_map]
      unfold M.forAcc
      apply M.bind_error
      exact M.bind_error (refineStep_typeError hA m₀ s)

/-- C57 is violated: `get_mesh_hierarchy` with one refinement and DOLFINx 0.7.0. -/
theorem C57_violated : ¬ C57_statement := by
  intro h
  have hrel : (Example.lineLib true).Released { release := [0, 7, 0] } :=
    ⟨rfl, rfl, rfl, by simp [Example.lineLib, PyVersion.part]⟩
  obtain ⟨l, s', e⟩ := h (Example.lineLib true) { release := [0, 7, 0] } (.inr (.inr (by simp [PyVersion.part]))) hrel
    .hierarchy 1 0 []
  rcases C57_partial hrel .hierarchy 1 0 [] with ⟨-, h1⟩ | ⟨⟨s'', e'⟩, -⟩
  · simp [PyVersion.part] at h1
  · rw [e] at e'
    cases e'

end Dxss
