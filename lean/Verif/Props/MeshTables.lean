import Verif.Props.MeshNodes

/-!
# C50: what is handed over for arbitrary tables of nodes and cells
-/

namespace Dxss

theorem takeRows_length {α : Type} {a : List α} {l : List ℕ} {r : List α} (h : takeRows a l = .ok r) :
    r.length = l.length ∧ ∀ i ∈ l, i < a.length := by
  induction l generalizing r with
  | nil => cases h; simp
  | cons i l ih =>
    unfold takeRows at h
    rcases hi : a[i]? with _ | x
    · simp only [hi] at h; cases h
    · simp only [hi] at h
      rcases ht : takeRows a l with e | t
      · rw [ht] at h; cases h
      · rw [ht] at h; cases h
        obtain ⟨h1, h2⟩ := ih ht
        refine ⟨by simp [h1], fun j hj => ?_⟩
        rcases List.mem_cons.1 hj with rfl | hj
        · exact (List.getElem?_eq_some_iff.1 hi).1
        · exact h2 j hj

theorem mapM_rows {f : List ℕ → Py (List ℕ)} {n : ℕ} (hf : ∀ r t, f r = .ok t → t.length = n) :
    ∀ {rows table : List (List ℕ)}, rows.mapM f = .ok table →
      table.length = rows.length ∧ ∀ t ∈ table, t.length = n := by
  intro rows
  induction rows with
  | nil => intro table h; simp [pure, Except.pure] at h; subst h; simp
  | cons r rows ih =>
    intro table h
    rw [List.mapM_cons] at h
    rcases hr : f r with e | t
    · rw [hr] at h; cases h
    · rw [hr] at h
      rcases hm : rows.mapM f with e | ts
      · simp [hm, bind, Except.bind] at h
      · simp [hm, bind, Except.bind, pure, Except.pure] at h
        subst h
        obtain ⟨h1, h2⟩ := ih hm
        exact ⟨by simp [h1], by simpa using ⟨hf _ _ hr, h2⟩⟩

/-- C50: whatever tables gmsh returns, if `get_mesh_inclusion` or `get_mesh_bottom_data` gets as far as `create_mesh`,
there is one row of coordinates for every node tag, and one cell with as many corners as the permutation for every
`k` entries of the table of cells; nothing is dropped silently. -/
theorem C50_tables {tags : List ℕ} {coords : List ℝ} {perm : List ℕ} {k : ℕ} {nodeTags : List ℕ}
    {rows : List (List ℝ)} {table : List (List ℕ)}
    (h : builderArgs tags coords perm k nodeTags = .ok (rows, table)) :
    rows.length = tags.length ∧ table.length * k = nodeTags.length ∧ ∀ t ∈ table, t.length = perm.length := by
  unfold builderArgs meshArgs at h
  rcases hx : nodeRows seqCheck tags coords with e | x
  · rw [hx] at h; cases h
  rw [hx] at h
  rcases hc : cellTable perm k nodeTags with e | c
  · simp [hc, bind, Except.bind] at h
  simp [hc, bind, Except.bind, pure, Except.pure] at h
  obtain ⟨rfl, rfl⟩ := h
  constructor
  · unfold nodeRows at hx
    rcases hp : reshape 2 (dropThird coords) with e | p
    · rw [hp] at hx; cases hx
    rw [hp] at hx
    rcases hs : takeRows (tags.map pred64) (argsort (tags.map pred64)) with e | s
    · simp [hs, bind, Except.bind] at hx
    simp only [hs, bind, Except.bind] at hx
    split at hx
    · cases hx
    · rw [(takeRows_length hx).1]; simp [argsort]
  · unfold cellTable at hc
    rcases hr : reshape k nodeTags with e | r
    · rw [hr] at hc; cases hc
    rw [hr] at hc
    obtain ⟨h1, h2⟩ := mapM_rows (fun r t ht => (takeRows_length ht).1) hc
    unfold reshape at hr
    split at hr
    · next hk => cases hr; exact ⟨by rw [h1]; simpa using Nat.div_mul_cancel (Nat.dvd_of_mod_eq_zero hk), h2⟩
    · cases hr

/-- C50: `get_mesh_inclusion_square` does not return on any input: besides the inverted test it uses a function that is
not defined. -/
theorem C50_square_never (tags : List ℕ) (coords : List ℝ) (perm : List ℕ) (k : ℕ) (nodeTags : List ℕ) :
    (∃ e, inclusionSquareArgs tags coords perm k nodeTags = .error e) ∧
    ((∃ r, builderArgs tags coords perm k nodeTags = .ok r) →
      inclusionSquareArgs tags coords perm k nodeTags = .error .nameError) := by
  unfold inclusionSquareArgs builderArgs
  rcases h : meshArgs seqCheck tags coords perm k nodeTags with e | r
  · exact ⟨⟨e, rfl⟩, fun ⟨_, h⟩ => by cases h⟩
  · exact ⟨⟨_, rfl⟩, fun _ => rfl⟩

/-- A numbering with a gap gets as far as `create_mesh`. -/
example : ∃ r, builderArgs [1, 5] [0, 0, 0, 1, 0, 0] [1, 0] 2 [1, 5] = .ok r := by
  obtain ⟨rows, h⟩ := (C50_refuses_exactly (nodes := [⟨1, 0, 0, 0⟩, ⟨5, 1, 0, 0⟩]) (by simp) (by simp)).2 (by
    intro h
    have := contiguous_tag h (n := ⟨5, 1, 0, 0⟩) (by simp)
    simp at this)
  have hn : nodeRows seqCheck [1, 5] [0, 0, 0, 1, 0, 0] = .ok rows := h
  unfold builderArgs meshArgs
  rw [hn]
  exact ⟨(rows, [[4, 0]]), rfl⟩

end Dxss
