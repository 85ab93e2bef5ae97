import Verif.Props.Meshes

/-!
# C56: the comparison of versions is a strict order
-/

namespace Dxss

/-- A comparison function of a total order. -/
structure TotalCmp {α : Type} (c : α → α → Ordering) : Prop where
  swap : ∀ a b, c b a = (c a b).swap
  trans : ∀ {a b d}, c a b = .lt → c b d = .lt → c a d = .lt
  eq : ∀ {a b}, c a b = .eq ↔ a = b

theorem totalCmp_compare {α : Type} [Ord α] [Std.TransOrd α] [Std.LawfulEqOrd α] :
    TotalCmp (compare : α → α → Ordering) where
  swap _ _ := Std.OrientedCmp.eq_swap
  trans h h' := Std.TransCmp.lt_trans h h'
  eq := Std.LawfulEqCmp.compare_eq_iff_eq

theorem TotalCmp.comap {α β : Type} {c : α → α → Ordering} (h : TotalCmp c) {f : β → α}
    (hf : Function.Injective f) : TotalCmp fun a b => c (f a) (f b) where
  swap _ _ := h.swap _ _
  trans := h.trans
  eq := h.eq.trans hf.eq_iff

theorem TotalCmp.prod {α β : Type} {c : α → α → Ordering} {d : β → β → Ordering} (h : TotalCmp c) (g : TotalCmp d) :
    TotalCmp fun (a b : α × β) => (c a.1 b.1).then (d a.2 b.2) where
  swap a b := by rw [h.swap a.1 b.1, g.swap a.2 b.2, Ordering.swap_then]
  trans {a b e} h1 h2 := by
    rw [Ordering.then_eq_lt] at *
    rcases h1 with h1 | ⟨h1, k1⟩ <;> rcases h2 with h2 | ⟨h2, k2⟩
    · exact .inl (h.trans h1 h2)
    · exact .inl (h.eq.1 h2 ▸ h1)
    · exact .inl (h.eq.1 h1 ▸ h2)
    · exact .inr ⟨h.eq.2 ((h.eq.1 h1).trans (h.eq.1 h2)), g.trans k1 k2⟩
  eq {a b} := by
    rw [Ordering.then_eq_eq, h.eq, g.eq, Prod.ext_iff]

theorem TotalCmp.ext {α : Type} {c : α → α → Ordering} (h : TotalCmp c) : TotalCmp (Ext.cmp c) where
  swap a b := by cases a <;> cases b <;> first | rfl | exact h.swap _ _
  trans {a b d} h1 h2 := by
    cases a <;> cases b <;> cases d <;> simp only [Ext.cmp, reduceCtorEq] at * <;> exact h.trans h1 h2
  eq {a b} := by cases a <;> cases b <;> simp [Ext.cmp, h.eq]

theorem TotalCmp.tuple {α : Type} {c : α → α → Ordering} (h : TotalCmp c) : TotalCmp (tupleCmp c) where
  swap a := by
    induction a with
    | nil => intro b; cases b <;> rfl
    | cons x l ih =>
      intro b
      cases b with
      | nil => rfl
      | cons y l' => rw [tupleCmp, tupleCmp, Ordering.swap_then, ← h.swap, ← ih]
  trans {a} := by
    induction a with
    | nil =>
      intro b d h1 h2
      cases b <;> cases d <;> simp_all [tupleCmp]
    | cons x l ih =>
      intro b d h1 h2
      cases b with
      | nil => simp [tupleCmp] at h1
      | cons y l' =>
        cases d with
        | nil => simp [tupleCmp] at h2
        | cons z l'' =>
          rw [tupleCmp, Ordering.then_eq_lt] at *
          rcases h1 with h1 | ⟨h1, k1⟩ <;> rcases h2 with h2 | ⟨h2, k2⟩
          · exact .inl (h.trans h1 h2)
          · exact .inl (h.eq.1 h2 ▸ h1)
          · exact .inl (h.eq.1 h1 ▸ h2)
          · exact .inr ⟨h.eq.2 ((h.eq.1 h1).trans (h.eq.1 h2)), ih k1 k2⟩
  eq {a} := by
    induction a with
    | nil => intro b; cases b <;> simp [tupleCmp]
    | cons x l ih =>
      intro b
      cases b with
      | nil => simp [tupleCmp]
      | cons y l' => rw [tupleCmp, Ordering.then_eq_eq, h.eq, ih, List.cons.injEq]

theorem compare_string_lt (s t : String) : compare s t = .lt ↔ s < t := by
  change compareOfLessAndEq s t = .lt ↔ _
  unfold compareOfLessAndEq
  split
  · simp [*]
  · split <;> simp [*]

theorem totalCmp_pre : TotalCmp preCmp :=
  (totalCmp_compare.prod totalCmp_compare).comap (f := fun p : PreKind × ℕ => (p.1.toNat, p.2)) fun a b h => by
    obtain ⟨x, i⟩ := a; obtain ⟨y, j⟩ := b
    cases x <;> cases y <;> simp_all [PreKind.toNat]

theorem totalCmp_local : TotalCmp localCmp where
  swap a b := by
    cases a <;> cases b <;> first | rfl | exact totalCmp_compare.swap _ _
  trans {a b d} h1 h2 := by
    cases a <;> cases b <;> cases d <;> simp only [localCmp, reduceCtorEq] at * <;> exact totalCmp_compare.trans h1 h2
  eq {a b} := by
    cases a <;> cases b <;> simp only [localCmp, reduceCtorEq, LocalSeg.num.injEq, LocalSeg.str.injEq] <;>
      exact totalCmp_compare.eq

theorem totalCmp_key : TotalCmp VersionKey.cmp :=
  (totalCmp_compare.prod <| totalCmp_compare.tuple.prod <| totalCmp_pre.ext.prod <| totalCmp_compare.ext.prod <|
    totalCmp_compare.ext.prod totalCmp_local.tuple.ext).comap
    (f := fun k : VersionKey => (k.epoch, k.release, k.pre, k.post, k.dev, k.loc)) fun a b h => by
      cases a; cases b; simp_all

/-- Two versions are the same up to trailing zeros of the release number. -/
def PyVersion.Same (v w : PyVersion) : Prop :=
  v.epoch = w.epoch ∧ (∀ i, v.part i = w.part i) ∧ v.pre = w.pre ∧ v.post = w.post ∧ v.dev = w.dev ∧ v.loc = w.loc

theorem strip_length_le {r s : List ℕ} (hs : s = [] ∨ ∃ l n, n ≠ 0 ∧ s = l ++ [n])
    (h : ∀ i, r.getD i 0 = s.getD i 0) : s.length ≤ r.length := by
  rcases hs with rfl | ⟨l, n, hn, rfl⟩
  · simp
  · by_contra hlt
    have hlen : r.length ≤ l.length := by simp at hlt; omega
    have := h l.length
    rw [List.getD_eq_getElem?_getD, List.getElem?_eq_none hlen] at this
    simp at this
    exact hn this.symm

theorem stripZeros_eq_iff (l l' : List ℕ) : stripZeros l = stripZeros l' ↔ ∀ i, l.getD i 0 = l'.getD i 0 := by
  refine ⟨fun h i => by rw [← stripZeros_getD, h, stripZeros_getD], fun h => ?_⟩
  have hg : ∀ i, (stripZeros l).getD i 0 = (stripZeros l').getD i 0 := fun i => by
    rw [stripZeros_getD, stripZeros_getD, h]
  have hlen := le_antisymm (strip_length_le (stripZeros_last l) fun i => (hg i).symm)
    (strip_length_le (stripZeros_last l') hg)
  refine List.ext_getElem hlen fun i h1 h2 => ?_
  have := hg i
  simpa [List.getD_eq_getElem?_getD, h1, h2] using this

theorem key_eq_iff (v w : PyVersion) : v.key = w.key ↔ v.Same w := by
  obtain ⟨e, r, p, q, d, l⟩ := v
  obtain ⟨e', r', p', q', d', l'⟩ := w
  simp only [PyVersion.key, PyVersion.Same, PyVersion.part, VersionKey.mk.injEq, stripZeros_eq_iff]
  refine and_congr_right fun _ => and_congr_right fun _ => ?_
  cases p <;> cases q <;> cases d <;> cases l <;> cases p' <;> cases q' <;> cases d' <;> cases l' <;> simp

/-- C56: the comparison is a strict order of the versions: no two versions are each before the other, it is transitive,
and neither of two versions is before the other exactly if they are the same up to trailing zeros. -/
theorem C56_strict_order (u v w : PyVersion) :
    (u.ltB v = true → v.ltB u = false) ∧ (u.ltB v = true → v.ltB w = true → u.ltB w = true) ∧
    (u.ltB v = false ∧ v.ltB u = false ↔ u.Same v) := by
  have T := totalCmp_key
  rw [← key_eq_iff, ← T.eq]
  simp only [PyVersion.ltB, beq_iff_eq, beq_eq_false_iff_ne]
  refine ⟨fun h => ?_, T.trans, ?_⟩
  · rw [T.swap u.key, h]; decide
  · rw [T.swap u.key v.key]
    cases VersionKey.cmp u.key v.key <;> simp

/-- C56: local versions as PEP 440 prescribes: a local version is after the version itself; the segments are compared
from the left, numbers by their value, texts alphabetically, a text before a number, and a version with further segments
is after the one without. -/
theorem C56_local (v : PyVersion) (l m m' : List LocalSeg) (a b : LocalSeg) :
    let V (x : Option (List LocalSeg)) : PyVersion := { v with loc := x }
    (V none).ltB (V (some m)) = true ∧ (V (some l)).ltB (V (some (l ++ a :: m))) = true ∧
    ((V (some (l ++ a :: m))).ltB (V (some (l ++ b :: m'))) = true ↔
      (match a, b with
        | .num i, .num j => i < j
        | .str s, .str t => s < t
        | .str _, .num _ => True
        | .num _, .str _ => False) ∨ a = b ∧ (V (some m)).ltB (V (some m')) = true) := by
  have hp : ∀ x y : Option (List LocalSeg),
      (({ v with loc := x } : PyVersion).ltB { v with loc := y } = true ↔
        Ext.cmp (tupleCmp localCmp) ({ v with loc := x } : PyVersion).key.loc
          ({ v with loc := y } : PyVersion).key.loc = .lt) := fun x y => by
    have h1 : ∀ k : VersionKey, compare k.epoch k.epoch = .eq := fun k => totalCmp_compare.eq.2 rfl
    simp only [PyVersion.ltB, VersionKey.cmp, beq_iff_eq, PyVersion.key]
    rw [totalCmp_compare.eq.2 rfl, totalCmp_compare.tuple.eq.2 rfl, totalCmp_pre.ext.eq.2 rfl,
      totalCmp_compare.ext.eq.2 rfl, totalCmp_compare.ext.eq.2 rfl]
    simp only [Ordering.eq_then]
  have hl : ∀ x y, tupleCmp localCmp (l ++ x) (l ++ y) = tupleCmp localCmp x y := fun x y => by
    induction l with
    | nil => rfl
    | cons z l ih => rw [List.cons_append, List.cons_append, tupleCmp, totalCmp_local.eq.2 rfl, ih]; rfl
  intro V
  refine ⟨(hp _ _).2 rfl, (hp _ _).2 ?_, ?_⟩
  · have := hl [] (a :: m)
    rw [List.append_nil] at this
    exact this
  · rw [hp, hp]
    change tupleCmp localCmp (l ++ a :: m) (l ++ b :: m') = .lt ↔ _ ∨ a = b ∧ tupleCmp localCmp m m' = .lt
    rw [hl, tupleCmp, Ordering.then_eq_lt, totalCmp_local.eq]
    refine or_congr ?_ Iff.rfl
    cases a <;> cases b <;> simp [localCmp, compare_lt_iff_lt]
    exact compare_string_lt _ _

example : ({ release := [0, 7], pre := some (.rc, 1) } : PyVersion).ltB v07 = true ∧
    v07.ltB { release := [0, 7], pre := some (.rc, 1) } = false := by
  have h := (C56_prereleases [0, 7] 1 0).2.2.2.1
  exact ⟨h, (C56_strict_order _ _ v07).1 h⟩

example : ({ release := [0, 7], loc := some [.str "x", .str "a"] } : PyVersion).ltB
    { release := [0, 7], loc := some [.str "x", .num 0] } = true :=
  ((C56_local v07 [.str "x"] [] [] (.str "a") (.num 0)).2.2).2 (.inl trivial)

end Dxss
