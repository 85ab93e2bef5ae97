import Verif.Lemmas.Coarse
import Verif.Props.Precond
import Verif.Props.Setup

/-!
# Properties C37 to C39: transfer between meshes, coarse correction, two-level preconditioner
-/

namespace Dxss
open Finset
set_option linter.unusedSectionVars false
variable {V : Type} [AddCommGroup V] [Module ℝ V] {C : Cfg V} {K : CoarseMesh V}

/-! ## C37 -/

/-- C37, `prolongation`: it succeeds, interpolates every block, and changes only `x_fine` (and the two
node functions used for interpolation). -/
theorem C37_prolongation (hC : C.Ok) (hK : K.Ok C) (hsf : SameOrder C.fe) (hsc : SameOrder K.fe) (w : World V)
    (hw : CoarseReady C K w.obj) {xc xf : Ref} (hne : xc ≠ xf) (hc : xc ∉ nodeRefs) (hf : xf ∉ nodeRefs) :
    ∃ w', prolongation C xc xf w = (.ok (), w') ∧
      (∀ c i s, i < C.full.nsub c → s < C.fe.mP → w'.heap xf (C.full.dof c i s)
        = K.toFine (fun t => if t < K.fe.mP then w.heap xc (K.full.dof c i t) else 0) s) ∧
      w'.obj = w.obj ∧ ∀ r, r ≠ xf → r ∉ nodeRefs → w'.heap r = w.heap r := by
  obtain ⟨w', e, h1, h2, -⟩ := prolongation_run hC hK hsf hsc hw hne hc hf
  exact ⟨w', e, h2, h1.1, fun r h h' => h1.2.2.2 r (by simp [h, h'])⟩

/-- C37, `restriction`. -/
theorem C37_restriction (hC : C.Ok) (hK : K.Ok C) (hsf : SameOrder C.fe) (hsc : SameOrder K.fe) (w : World V)
    (hw : CoarseReady C K w.obj) {xc xf : Ref} (hne : xc ≠ xf) (hc : xc ∉ nodeRefs) (hf : xf ∉ nodeRefs) :
    ∃ w', restriction C xc xf w = (.ok (), w') ∧
      (∀ c i s, i < K.full.nsub c → s < K.fe.mP → w'.heap xc (K.full.dof c i s)
        = K.toCoarse (fun t => if t < C.fe.mP then w.heap xf (C.full.dof c i t) else 0) s) ∧
      w'.obj = w.obj ∧ ∀ r, r ≠ xc → r ∉ nodeRefs → w'.heap r = w.heap r := by
  obtain ⟨w', e, h1, h2, -⟩ := restriction_run hC hK hsf hsc hw hne hc hf
  exact ⟨w', e, h2, h1.1, fun r h h' => h1.2.2.2 r (by simp [h, h'])⟩

theorem Transferred.unique {Ls Ld : FSpace} {ms md : ℕ} {m : Fin 4 → ℕ} (hm : ∀ c, m c = md) (hL : Ld.Ok m)
    {itp : Vec → Vec} {x y y' : Vec} (h : Transferred Ls Ld ms md itp x y) (h' : Transferred Ls Ld ms md itp x y') :
    ∀ d < Ld.size, y d = y' d := by
  intro d hd
  obtain ⟨c, i, s, hi, hs, rfl⟩ := hL.surj d hd
  rw [h c i s hi (hm c ▸ hs), h' c i s hi (hm c ▸ hs)]

/-- C37, every entry of the target is written: entries of `x_fine` after the call do not depend on its
content before, nor on anything but the entries of `x_coarse`. -/
theorem C37_every_entry (hC : C.Ok) (hK : K.Ok C) (hsf : SameOrder C.fe) (hsc : SameOrder K.fe) (w₁ w₂ : World V)
    (hw₁ : CoarseReady C K w₁.obj) (hw₂ : CoarseReady C K w₂.obj) {xc xf : Ref} (hne : xc ≠ xf) (hc : xc ∉ nodeRefs)
    (hf : xf ∉ nodeRefs) (hx : ∀ d < K.full.size, w₁.heap xc d = w₂.heap xc d) :
    ∀ d < C.full.size, (prolongation C xc xf w₁).2.heap xf d = (prolongation C xc xf w₂).2.heap xf d := by
  obtain ⟨w₁', e₁, -, h₁, -⟩ := prolongation_run hC hK hsf hsc hw₁ hne hc hf
  obtain ⟨w₂', e₂, -, h₂, -⟩ := prolongation_run hC hK hsf hsc hw₂ hne hc hf
  rw [e₁, e₂]
  refine Transferred.unique hsf.m hC.full h₁ fun c i s hi hs => ?_
  rw [h₂ c i s hi hs]
  have hi' : i < K.full.nsub c := by rw [hK.fullN, ← hC.fullN]; exact hi
  congr 1
  funext t
  unfold blockVal
  split
  · next ht => rw [hx _ (hK.full.lt c i t hi' (by rw [hsc.m]; exact ht))]
  · rfl

/-- … and likewise for `restriction`. -/
theorem C37_every_entry_restriction (hC : C.Ok) (hK : K.Ok C) (hsf : SameOrder C.fe) (hsc : SameOrder K.fe)
    (w₁ w₂ : World V) (hw₁ : CoarseReady C K w₁.obj) (hw₂ : CoarseReady C K w₂.obj) {xc xf : Ref} (hne : xc ≠ xf)
    (hc : xc ∉ nodeRefs) (hf : xf ∉ nodeRefs) (hx : ∀ d < C.full.size, w₁.heap xf d = w₂.heap xf d) :
    ∀ d < K.full.size, (restriction C xc xf w₁).2.heap xc d = (restriction C xc xf w₂).2.heap xc d := by
  obtain ⟨w₁', e₁, -, h₁, -⟩ := restriction_run hC hK hsf hsc hw₁ hne hc hf
  obtain ⟨w₂', e₂, -, h₂, -⟩ := restriction_run hC hK hsf hsc hw₂ hne hc hf
  rw [e₁, e₂]
  refine Transferred.unique hsc.m hK.full h₁ fun c i s hi hs => ?_
  rw [h₂ c i s hi hs]
  have hi' : i < C.full.nsub c := by rw [hC.fullN, ← hK.fullN]; exact hi
  congr 1
  funext t
  unfold blockVal
  split
  · next ht => rw [hx _ (hC.full.lt c i t hi' (by rw [hsf.m]; exact ht))]
  · rfl

/-- Interpolating a coarse function to the fine mesh and back is the identity. -/
def Nested (C : Cfg V) (K : CoarseMesh V) : Prop :=
  ∀ a : Vec, (∀ s, K.fe.mP ≤ s → a s = 0) →
    ∀ s < K.fe.mP, K.toCoarse (fun t => if t < C.fe.mP then K.toFine a t else 0) s = a s

theorem round_trip (hC : C.Ok) (hK : K.Ok C) (hsc : SameOrder K.fe) (hn : Nested C K) {x y z : Vec}
    (h1 : Transferred K.full C.full K.fe.mP C.fe.mP K.toFine x y)
    (h2 : Transferred C.full K.full C.fe.mP K.fe.mP K.toCoarse y z) : ∀ d < K.full.size, z d = x d := by
  intro d hd
  obtain ⟨c, i, s, hi, hs, rfl⟩ := hK.full.surj d hd
  rw [hsc.m] at hs
  have hi' : i < C.full.nsub c := by rw [hC.fullN, ← hK.fullN]; exact hi
  rw [h2 c i s hi hs]
  have hb : blockVal C.full C.fe.mP y c i = fun t => if t < C.fe.mP then
      K.toFine (blockVal K.full K.fe.mP x c i) t else 0 := by
    funext t
    unfold blockVal
    split
    · next ht => exact h1 c i t hi' ht
    · rfl
  rw [hb, hn _ (fun t ht => by unfold blockVal; rw [if_neg (by omega)]) s hs]
  unfold blockVal
  rw [if_pos hs]

/-- C37, restriction after prolongation: the identity, if interpolation is nested. -/
theorem C37_round_trip (hC : C.Ok) (hK : K.Ok C) (hsf : SameOrder C.fe) (hsc : SameOrder K.fe) (hn : Nested C K)
    (w : World V) (hw : CoarseReady C K w.obj) {xc xf xc' : Ref} (hne : xc ≠ xf) (hne' : xc' ≠ xf)
    (hc : xc ∉ nodeRefs) (hf : xf ∉ nodeRefs) (hc' : xc' ∉ nodeRefs) :
    ∃ w', (do prolongation C xc xf; restriction C xc' xf) w = (.ok (), w') ∧
      ∀ d < K.full.size, w'.heap xc' d = w.heap xc d := by
  obtain ⟨w₁, e₁, g₁, h₁, -⟩ := prolongation_run hC hK hsf hsc hw hne hc hf
  obtain ⟨w₂, e₂, g₂, h₂, -⟩ := restriction_run hC hK hsf hsc (w := w₁) (by rw [g₁.1]; exact hw) hne' hc' hf
  exact ⟨w₂, by rw [M.bind_ok e₁, e₂], round_trip hC hK hsc hn h₁ h₂⟩

theorem npFill_cases (m : ℕ) (v : List ℝ) : (∃ a, npFill m v = .ok a) ∨ npFill m v = .error .valueError := by
  unfold npFill
  split
  · exact .inl ⟨_, rfl⟩
  · split
    · exact .inl ⟨_, rfl⟩
    · exact .inr rfl

theorem npFill_bad {m : ℕ} {v : List ℝ} (h : v.length ≠ m) (h1 : v.length ≠ 1) : npFill m v = .error .valueError := by
  unfold npFill
  rw [if_neg h]
  split
  · next x => exact absurd rfl h1
  · rfl

theorem npAssign_cases (a : Vec) (idx : List ℕ) (v : List ℝ) :
    (∃ b, npAssign a idx v = .ok b) ∨ npAssign a idx v = .error .valueError := by
  unfold npAssign
  split
  · exact .inl ⟨_, rfl⟩
  · split
    · exact .inl ⟨_, rfl⟩
    · exact .inr rfl

theorem npAssign_bad {a : Vec} {idx : List ℕ} {v : List ℝ} (h : v.length ≠ idx.length) (h1 : v.length ≠ 1) :
    npAssign a idx v = .error .valueError := by
  unfold npAssign
  rw [if_neg h]
  split
  · next x => exact absurd rfl h1
  · rfl

theorem slabForM_error_first {σ : Type} {q qstar N : ℕ} {body : Counters → ℕ → M σ Unit} {s : σ} {e : PyErr}
    (hN : 1 ≤ N) (h : (body (ctr q qstar 0) 0 s).1 = .error e) : (slabForM q qstar N body s).1 = .error e := by
  obtain ⟨N, rfl⟩ : ∃ k, N = k + 1 := ⟨N - 1, by omega⟩
  have hi : ctr q qstar 0 = Counters.init := by simp [ctr, Counters.init]
  rw [hi] at h
  unfold slabForM
  rw [List.range_succ_eq_map]
  simp only [M.forAcc, M.bind_run, h]

/-- Number of dofs `a` can be assigned to an array (or index set) of size `b`. -/
def ShapesFit (a b : ℕ) : Prop := a = b ∨ a = 1

/-- C37, shape error: if the primal and dual scalar spaces have different numbers of dofs (and no
one-element broadcast hides it), `prolongation` raises `ValueError`, whatever the vectors. -/
theorem C37_prolongation_shape_error (hC : C.Ok) (hK : K.Ok C) (hN : 1 ≤ C.D.N)
    (hbad : ¬ (ShapesFit K.fe.mD K.fe.mP ∧ ShapesFit C.fe.mP C.fe.mD)) (w : World V) (hw : CoarseReady C K w.obj)
    {xc xf : Ref} (hf : xf ∉ nodeRefs) : (prolongation C xc xf w).1 = .error .valueError := by
  rw [prolongation_eq]
  unfold xferLoop
  refine slabForM_error_first hN ?_
  rw [blockLoop_eq]
  have hlt : ∀ p ∈ blockList (slabSizes C.D.q C.D.qstar),
      slabIx C.D 0 p.1 p.2 < (C.D.timeOrder p.1 + 1) * C.D.N := fun p hp => by
    have hp := mem_blockList.1 hp
    rw [slabSizes_eq] at hp
    exact slabIx_lt (by omega) hp
  have h0 : ((2 : Fin 4), 0) ∈ blockList (slabSizes C.D.q C.D.qstar) := mem_blockList.2 (by simp [slabSizes])
  refine failLoop (P := fun w' => w'.obj = w.obj) (fun p hp w' hw' => ?_) h0 (fun w' hw' => ?_) rfl
  · rw [shift_eq, prolBlock_run (K := K) (by rw [hw']; exact hw) hf (hlt p hp)]
    rcases npFill_cases K.fe.mP ((K.full.collapse p.1 (slabIx C.D 0 p.1 p.2)).map (w'.heap xc)) with ⟨a, ha⟩ | ha
    · rw [ha]
      simp only
      rcases npAssign_cases (w'.heap xf) (C.full.collapse p.1 (slabIx C.D 0 p.1 p.2))
        ((List.range C.fe.mP).map (K.toFine a)) with ⟨y, hy⟩ | hy
      · rw [hy]; exact .inl ⟨_, rfl, hw'⟩
      · rw [hy]; exact .inr rfl
    · rw [ha]; exact .inr rfl
  · have hi := hlt _ h0
    have hi₁ : slabIx C.D 0 2 0 < C.full.nsub 2 := by rw [hC.fullN, fullSizes_eq]; exact hi
    have hi₂ : slabIx C.D 0 2 0 < K.full.nsub 2 := by rw [hK.fullN, fullSizes_eq]; exact hi
    have hl₁ := hC.full.len _ _ hi₁
    have hl₂ := hK.full.len _ _ hi₂
    simp only [FE.m, Matrix.cons_val] at hl₁ hl₂
    simp only
    rw [shift_eq, prolBlock_run (K := K) (by rw [hw']; exact hw) hf hi]
    by_cases hk : ShapesFit K.fe.mD K.fe.mP
    · rcases npFill_cases K.fe.mP ((K.full.collapse 2 (slabIx C.D 0 2 0)).map (w'.heap xc)) with ⟨a, ha⟩ | ha
      · rw [ha]
        simp only
        have hc : ¬ ShapesFit C.fe.mP C.fe.mD := fun h => hbad ⟨hk, h⟩
        rw [ShapesFit, not_or] at hc
        rw [npAssign_bad (by simpa [hl₁] using hc.1) (by simpa using hc.2)]
      · rw [ha]
    · rw [ShapesFit, not_or] at hk
      rw [npFill_bad (by simpa [hl₂] using hk.1) (by simpa [hl₂] using hk.2)]

/-- … and so does `restriction`. -/
theorem C37_restriction_shape_error (hC : C.Ok) (hK : K.Ok C) (hN : 1 ≤ C.D.N)
    (hbad : ¬ (ShapesFit C.fe.mD C.fe.mP ∧ ShapesFit K.fe.mP K.fe.mD)) (w : World V) (hw : CoarseReady C K w.obj)
    {xc xf : Ref} (hc : xc ∉ nodeRefs) : (restriction C xc xf w).1 = .error .valueError := by
  rw [restriction_eq]
  unfold xferLoop
  refine slabForM_error_first hN ?_
  rw [blockLoop_eq]
  have hlt : ∀ p ∈ blockList (slabSizes C.D.q C.D.qstar),
      slabIx C.D 0 p.1 p.2 < (C.D.timeOrder p.1 + 1) * C.D.N := fun p hp => by
    have hp := mem_blockList.1 hp
    rw [slabSizes_eq] at hp
    exact slabIx_lt (by omega) hp
  have h0 : ((2 : Fin 4), 0) ∈ blockList (slabSizes C.D.q C.D.qstar) := mem_blockList.2 (by simp [slabSizes])
  refine failLoop (P := fun w' => w'.obj = w.obj) (fun p hp w' hw' => ?_) h0 (fun w' hw' => ?_) rfl
  · rw [shift_eq, restBlock_run (K := K) (by rw [hw']; exact hw) hc (hlt p hp)]
    rcases npFill_cases C.fe.mP ((C.full.collapse p.1 (slabIx C.D 0 p.1 p.2)).map (w'.heap xf)) with ⟨a, ha⟩ | ha
    · rw [ha]
      simp only
      rcases npAssign_cases (w'.heap xc) (K.full.collapse p.1 (slabIx C.D 0 p.1 p.2))
        ((List.range K.fe.mP).map (K.toCoarse a)) with ⟨y, hy⟩ | hy
      · rw [hy]; exact .inl ⟨_, rfl, hw'⟩
      · rw [hy]; exact .inr rfl
    · rw [ha]; exact .inr rfl
  · have hi := hlt _ h0
    have hi₁ : slabIx C.D 0 2 0 < C.full.nsub 2 := by rw [hC.fullN, fullSizes_eq]; exact hi
    have hi₂ : slabIx C.D 0 2 0 < K.full.nsub 2 := by rw [hK.fullN, fullSizes_eq]; exact hi
    have hl₁ := hC.full.len _ _ hi₁
    have hl₂ := hK.full.len _ _ hi₂
    simp only [FE.m, Matrix.cons_val] at hl₁ hl₂
    simp only
    rw [shift_eq, restBlock_run (K := K) (by rw [hw']; exact hw) hc hi]
    by_cases hk : ShapesFit C.fe.mD C.fe.mP
    · rcases npFill_cases C.fe.mP ((C.full.collapse 2 (slabIx C.D 0 2 0)).map (w'.heap xf)) with ⟨a, ha⟩ | ha
      · rw [ha]
        simp only
        have hc : ¬ ShapesFit K.fe.mP K.fe.mD := fun h => hbad ⟨hk, h⟩
        rw [ShapesFit, not_or] at hc
        rw [npAssign_bad (by simpa [hl₂] using hc.1) (by simpa using hc.2)]
      · rw [ha]
    · rw [ShapesFit, not_or] at hk
      rw [npFill_bad (by simpa [hl₁] using hk.1) (by simpa [hl₁] using hk.2)]

/-! ## C38 -/

/-- A solution operator for systems of the given size sees only that many entries. -/
def Local (size : ℕ) (f : Vec → Py Vec) : Prop := ∀ b b' : Vec, (∀ d < size, b d = b' d) → f b = f b'

/-- The set-up state in which `q_op` can run with coarse solution operator `f`. -/
structure QReady (C : Cfg V) (K : CoarseMesh V) (o : Obj V) (f : Vec → Py Vec) : Prop extends CoarseReady C K o where
  tmps : o.coarseTmps = some ()
  solver : ∃ s, o.solverCoarse = some s ∧ s.Computes K.full.size f

def qScratch : Set Ref := {.uNodeFine, .uNodeCoarse, .tmp1Coarse, .tmp2Coarse}

theorem node_sub_q : nodeRefs ⊆ qScratch := by
  intro r hr; simp only [nodeRefs, Set.mem_insert_iff, Set.mem_singleton_iff] at hr
  rcases hr with rfl | rfl <;> simp [qScratch]

theorem insert_sub {A B : Set Ref} {x : Ref} (h : A ⊆ B) (hx : x ∈ B) : insert x A ⊆ B := by
  intro r hr
  rcases Set.mem_insert_iff.1 hr with rfl | hr
  · exact hx
  · exact h hr

theorem qOp_run (hC : C.Ok) (hK : K.Ok C) (hsf : SameOrder C.fe) (hsc : SameOrder K.fe) {w : World V} {f : Vec → Py Vec}
    (hf : Local K.full.size f) (hw : QReady C K w.obj f) {b x : Ref} (hb : b ∉ qScratch) (hx : x ∉ qScratch) {r : Vec}
    (hr : Transferred C.full K.full C.fe.mP K.fe.mP K.toCoarse (w.heap b) r) :
    match f r with
    | .ok u => ∃ w', qOp C b x w = (.ok (), w') ∧ Near (insert x qScratch) w w' ∧
        Transferred K.full C.full K.fe.mP C.fe.mP K.toFine u (w'.heap x)
    | .error e => ∃ w', qOp C b x w = (.error e, w') ∧ Near qScratch w w' := by
  have hbn : b ∉ nodeRefs := fun h => hb (node_sub_q h)
  have hxn : x ∉ nodeRefs := fun h => hx (node_sub_q h)
  have hb1 : Ref.tmp1Coarse ≠ b := fun h => hb (h ▸ by simp [qScratch])
  have hx2 : Ref.tmp2Coarse ≠ x := fun h => hx (h ▸ by simp [qScratch])
  obtain ⟨w₁, e₁, g₁, h₁, -⟩ := restriction_run hC hK hsf hsc hw.toCoarseReady hb1 (by simp [nodeRefs]) hbn
  obtain ⟨s, hs, hcomp⟩ := hw.solver
  have hfr : f (w₁.heap .tmp1Coarse) = f r := hf _ _ (Transferred.unique hsc.m hK.full h₁ hr)
  have hm := hcomp (w₁.heap .tmp1Coarse) (w₁.heap .tmp2Coarse)
  rw [hfr] at hm
  have g₁' : Near qScratch w w₁ := g₁.mono (insert_sub node_sub_q (by simp [qScratch]))
  have run : qOp C b x w = (do
      M.lift (s (w₁.heap .tmp1Coarse) (w₁.heap .tmp2Coarse)).1
      prolongation C .tmp2Coarse x) (w₁.put .tmp2Coarse (s (w₁.heap .tmp1Coarse) (w₁.heap .tmp2Coarse)).2) := by
    unfold qOp
    rw [M.bind_ok (M.attr_some (a := ()) (by exact hw.tmps)), M.bind_ok e₁,
      M.bind_ok (M.attr_some (a := s) (by rw [g₁.1]; exact hs)), M.bind_ok (getVec_run _ _), M.bind_ok (getVec_run _ _)]
    rfl
  set w₂ := w₁.put .tmp2Coarse (s (w₁.heap .tmp1Coarse) (w₁.heap .tmp2Coarse)).2 with hw₂
  have g₂ : Near qScratch w w₂ := g₁'.put (by simp [qScratch]) _
  rcases hfv : f r with e | u
  · rw [hfv] at hm
    simp only at hm ⊢
    exact ⟨w₂, by rw [run, M.bind_error (by rw [M.lift_run, hm])], g₂⟩
  · rw [hfv] at hm
    simp only at hm ⊢
    obtain ⟨w₃, e₃, g₃, h₃, -⟩ := prolongation_run hC hK hsf hsc (w := w₂) (by rw [g₂.1]; exact hw.toCoarseReady) hx2
      (by simp [nodeRefs]) hxn
    refine ⟨w₃, by rw [run, M.bind_ok (by rw [M.lift_run, hm.1]), e₃],
      (g₂.mono (Set.subset_insert _ _)).trans (g₃.mono (insert_sub (node_sub_q.trans (Set.subset_insert _ _)) (by simp))), ?_⟩
    intro c i t hi ht
    rw [h₃ c i t hi ht]
    congr 1
    have hi' : i < K.full.nsub c := by rw [hK.fullN, ← hC.fullN]; exact hi
    funext t
    unfold blockVal
    split
    · next ht => rw [hw₂, put_same, hm.2 _ (hK.full.lt c i t hi' (by rw [hsc.m]; exact ht))]
    · rfl

/-- The restriction of a vector of the fine space, as a vector (zero beyond the coarse dofs). -/
theorem restricted_exists (hC : C.Ok) (hK : K.Ok C) (hsc : SameOrder K.fe) (b : Vec) :
    ∃ r, Transferred C.full K.full C.fe.mP K.fe.mP K.toCoarse b r := by
  have h : ∀ d, ∃ v : ℝ, ∀ c i s, i < K.full.nsub c → s < K.fe.mP → K.full.dof c i s = d →
      v = K.toCoarse (blockVal C.full C.fe.mP b c i) s := by
    intro d
    by_cases hd : ∃ c i s, i < K.full.nsub c ∧ s < K.fe.mP ∧ K.full.dof c i s = d
    · obtain ⟨c, i, s, hi, hs, rfl⟩ := hd
      refine ⟨K.toCoarse (blockVal C.full C.fe.mP b c i) s, fun c' i' s' hi' hs' he => ?_⟩
      obtain ⟨rfl, rfl, rfl⟩ := hK.full.inj _ _ _ _ _ _ hi' (by rw [hsc.m]; exact hs') hi (by rw [hsc.m]; exact hs) he
      rfl
    · exact ⟨0, fun c i s hi hs he => absurd ⟨c, i, s, hi, hs, he⟩ hd⟩
  choose r hr using h
  exact ⟨r, fun c i s hi hs => hr _ c i s hi hs rfl⟩

/-- C38, value: `q_op(b, x)` writes prolongation ∘ coarse solve ∘ restriction of `b` to `x`, or raises
the coarse solver's exception leaving `x` alone; only scratch vectors change besides. -/
theorem C38_value (hC : C.Ok) (hK : K.Ok C) (hsf : SameOrder C.fe) (hsc : SameOrder K.fe) (w : World V)
    {f : Vec → Py Vec} (hf : Local K.full.size f) (hw : QReady C K w.obj f) {b x : Ref} (hb : b ∉ qScratch)
    (hx : x ∉ qScratch) :
    ∃ r, Transferred C.full K.full C.fe.mP K.fe.mP K.toCoarse (w.heap b) r ∧ 
      match f r with
      | .ok u => ∃ w', qOp C b x w = (.ok (), w') ∧ Near (insert x qScratch) w w' ∧
          Transferred K.full C.full K.fe.mP C.fe.mP K.toFine u (w'.heap x)
      | .error e => ∃ w', qOp C b x w = (.error e, w') ∧ Near qScratch w w' := by
  obtain ⟨r, hr⟩ := restricted_exists hC hK hsc (w.heap b)
  exact ⟨r, hr, qOp_run hC hK hsf hsc hf hw hb hx hr⟩

theorem Transferred.congr_src {Ls Ld : FSpace} {ms md : ℕ} {m : Fin 4 → ℕ} (hm : ∀ c, m c = ms) (hL : Ls.Ok m)
    (hn : Ls.nsub = Ld.nsub) {itp : Vec → Vec} {x x' y : Vec} (hx : ∀ d < Ls.size, x d = x' d)
    (h : Transferred Ls Ld ms md itp x y) : Transferred Ls Ld ms md itp x' y := by
  intro c i s hi hs
  rw [h c i s hi hs]
  congr 1
  funext t
  unfold blockVal
  split
  · next ht => rw [hx _ (hL.lt c i t (by rw [hn]; exact hi) (by rw [hm]; exact ht))]
  · rfl

/-- C38, independence of scratch state: outcome and result depend on the entries of `b` only. -/
theorem C38_depends_on_input_only (hC : C.Ok) (hK : K.Ok C) (hsf : SameOrder C.fe) (hsc : SameOrder K.fe)
    (w₁ w₂ : World V) {f : Vec → Py Vec} (hf : Local K.full.size f) (hw₁ : QReady C K w₁.obj f)
    (hw₂ : QReady C K w₂.obj f) {b x : Ref} (hb : b ∉ qScratch) (hx : x ∉ qScratch)
    (he : ∀ d < C.full.size, w₁.heap b d = w₂.heap b d) :
    (qOp C b x w₁).1 = (qOp C b x w₂).1 ∧ ((qOp C b x w₁).1 = .ok () →
      ∀ d < C.full.size, (qOp C b x w₁).2.heap x d = (qOp C b x w₂).2.heap x d) := by
  obtain ⟨r, hr⟩ := restricted_exists hC hK hsc (w₁.heap b)
  have h1 := qOp_run hC hK hsf hsc hf hw₁ hb hx hr
  have h2 := qOp_run hC hK hsf hsc hf hw₂ hb hx
    (hr.congr_src hsf.m hC.full (by rw [hC.fullN, hK.fullN]) he)
  rcases hfv : f r with e | u
  · rw [hfv] at h1 h2
    obtain ⟨_, e1, -⟩ := h1
    obtain ⟨_, e2, -⟩ := h2
    rw [e1, e2]
    exact ⟨rfl, fun h => by cases h⟩
  · rw [hfv] at h1 h2
    obtain ⟨_, e1, -, t1⟩ := h1
    obtain ⟨_, e2, -, t2⟩ := h2
    rw [e1, e2]
    exact ⟨rfl, fun _ => Transferred.unique hsf.m hC.full t1 t2⟩

/-- A map of coefficient vectors is linear. -/
def VecLinear (g : Vec → Vec) : Prop := ∀ (a a' : ℝ) (x x' : Vec), g (a • x + a' • x') = a • g x + a' • g x'

theorem Transferred.linear {Ls Ld : FSpace} {ms md : ℕ} {itp : Vec → Vec} (hi : VecLinear itp) {x x' y y' : Vec}
    (h : Transferred Ls Ld ms md itp x y) (h' : Transferred Ls Ld ms md itp x' y') (a a' : ℝ) :
    Transferred Ls Ld ms md itp (a • x + a' • x') (a • y + a' • y') := by
  intro c i s hi' hs
  have e : blockVal Ls ms (a • x + a' • x') c i = a • blockVal Ls ms x c i + a' • blockVal Ls ms x' c i := by
    funext t
    simp only [blockVal, Pi.add_apply, Pi.smul_apply, smul_eq_mul]
    split <;> ring
  rw [e, hi]
  simp only [Pi.add_apply, Pi.smul_apply, h c i s hi' hs, h' c i s hi' hs]

/-- C38, linearity: for linear interpolation and a linear coarse solver. -/
theorem C38_linear (hC : C.Ok) (hK : K.Ok C) (hsf : SameOrder C.fe) (hsc : SameOrder K.fe) (hP : VecLinear K.toFine)
    (hR : VecLinear K.toCoarse) (w₁ w₂ w₃ : World V) {f : Vec → Py Vec} (hf : Local K.full.size f)
    (hlin : SolLinear K.full.size f) (hw₁ : QReady C K w₁.obj f) (hw₂ : QReady C K w₂.obj f) (hw₃ : QReady C K w₃.obj f)
    {b x : Ref} (hb : b ∉ qScratch) (hx : x ∉ qScratch) (a a' : ℝ)
    (hsum : ∀ d < C.full.size, w₃.heap b d = a * w₁.heap b d + a' * w₂.heap b d)
    (ho₁ : (qOp C b x w₁).1 = .ok ()) (ho₂ : (qOp C b x w₂).1 = .ok ()) :
    (qOp C b x w₃).1 = .ok () ∧ ∀ d < C.full.size,
      (qOp C b x w₃).2.heap x d = a * (qOp C b x w₁).2.heap x d + a' * (qOp C b x w₂).2.heap x d := by
  obtain ⟨r₁, hr₁⟩ := restricted_exists hC hK hsc (w₁.heap b)
  obtain ⟨r₂, hr₂⟩ := restricted_exists hC hK hsc (w₂.heap b)
  have hns : C.full.nsub = K.full.nsub := by rw [hC.fullN, hK.fullN]
  have h1 := qOp_run hC hK hsf hsc hf hw₁ hb hx hr₁
  have h2 := qOp_run hC hK hsf hsc hf hw₂ hb hx hr₂
  have h3 := qOp_run hC hK hsf hsc hf hw₃ hb hx ((hr₁.linear hR hr₂ a a').congr_src hsf.m hC.full hns
    (x' := w₃.heap b) fun d hd => by rw [hsum d hd]; simp)
  rcases hf₁ : f r₁ with e | u₁
  · rw [hf₁] at h1; obtain ⟨_, e1, -⟩ := h1; rw [e1] at ho₁; cases ho₁
  rcases hf₂ : f r₂ with e | u₂
  · rw [hf₂] at h2; obtain ⟨_, e2, -⟩ := h2; rw [e2] at ho₂; cases ho₂
  obtain ⟨u₃, hf₃, hu⟩ := hlin a a' r₁ r₂ u₁ u₂ hf₁ hf₂
  rw [hf₁] at h1; rw [hf₂] at h2; rw [hf₃] at h3
  obtain ⟨w₁', e1, -, t1⟩ := h1
  obtain ⟨w₂', e2, -, t2⟩ := h2
  obtain ⟨w₃', e3, -, t3⟩ := h3
  rw [e1, e2, e3]
  refine ⟨rfl, fun d hd => ?_⟩
  have := Transferred.unique hsf.m hC.full t3 (((t1.linear hP t2 a a').congr_src hsc.m hK.full hns.symm
    (x' := u₃) fun d hd => by rw [hu d hd]; simp)) d hd
  simpa using this

/-- C38, exactness on the coarse space: if interpolation is nested and the coarse solver inverts the
coarse matrix, `q_op` maps the prolongation of `A_c y` to the prolongation of `y`. -/
theorem C38_exact_on_coarse (hC : C.Ok) (hK : K.Ok C) (hsf : SameOrder C.fe) (hsc : SameOrder K.fe) (hn : Nested C K)
    (w : World V) {f : Vec → Py Vec} (hf : Local K.full.size f) (hw : QReady C K w.obj f) {b x : Ref} (hb : b ∉ qScratch)
    (hx : x ∉ qScratch) {A : Mat} (hA : A.size = K.full.size) (hinv : LeftInverse f A) (y : Vec)
    (hby : Transferred K.full C.full K.fe.mP C.fe.mP K.toFine (A.mult y) (w.heap b)) :
    ∃ w', qOp C b x w = (.ok (), w') ∧ Transferred K.full C.full K.fe.mP C.fe.mP K.toFine y (w'.heap x) := by
  obtain ⟨r, hr⟩ := restricted_exists hC hK hsc (w.heap b)
  have hrA := round_trip hC hK hsc hn hby hr
  have h := qOp_run hC hK hsf hsc hf hw hb hx hr
  obtain ⟨u, hu, huy⟩ := hinv y
  rw [hf r _ hrA, hu] at h
  obtain ⟨w', e, -, t⟩ := h
  exact ⟨w', e, t.congr_src hsc.m hK.full (by rw [hC.fullN, hK.fullN]) fun d hd => huy d (hA ▸ hd)⟩

/-! ## C39 -/

/-- The full statement of C39: from every fully prepared state with solvers that succeed,
`pre_twolvl(b, x)` succeeds and computes the coarse correction `q` of `b` plus time marching of the
residual `b - A q`.  It is false, see `C39_always_fails`. -/
def TwolvlSpec (C : Cfg V) (K : CoarseMesh V) (f fF fS : Vec → Py Vec) (b x : Vec) : Prop :=
  ∃ r u q, Transferred C.full K.full C.fe.mP K.fe.mP K.toCoarse b r ∧ f r = .ok u ∧
    Transferred K.full C.full K.fe.mP C.fe.mP K.toFine u q ∧
    ∀ n < C.D.N, ∃ v, march C (oldLoad C 0 0 0) (oldCarry C) fF fS (b - mfOp C q) n = .ok v ∧ BlockEq C n (x - q) v

/-- All the set-up `pre_twolvl` relies on. -/
structure TwolvlReady (C : Cfg V) (K : CoarseMesh V) (o : Obj V) (f fF fS : Vec → Py Vec) : Prop where
  q : QReady C K o f
  mf : MfReady C o
  sol : SolReady C o fF fS
  tmps : o.fineTmps = some ()

/-- The solvers never fail. -/
def Total (f : Vec → Py Vec) : Prop := ∀ b, ∃ u, f b = .ok u

def C39_statement (V : Type) [AddCommGroup V] [Module ℝ V] : Prop :=
  ∀ (C : Cfg V) (K : CoarseMesh V) (w : World V) (f fF fS : Vec → Py Vec) (k k' : ℕ), C.Ok → K.Ok C →
    SameOrder C.fe → SameOrder K.fe → Local K.full.size f → Total f → Total fF → Total fS →
    TwolvlReady C K w.obj f fF fS → k ≠ k' →
    ∃ w', preTwolvl C (.user k) (.user k') w = (.ok (), w') ∧
      TwolvlSpec C K f fF fS (w.heap (.user k)) (w'.heap (.user k'))

/-- C39, violation: every call raises `AttributeError` and changes nothing. -/
theorem C39_always_fails (w : World V) (b x : Ref) : preTwolvl C b x w = (.error .attributeError, w) := rfl

theorem march_total {l₀ : Vec} {ln : Vec → Vec} {fF fS : Vec → Py Vec} (hF : Total fF) (hS : Total fS) (b : Vec) (n : ℕ) :
    ∃ u, march C l₀ ln fF fS b n = .ok u := by
  induction n with
  | zero => exact hF _
  | succ n ih => obtain ⟨u, hu⟩ := ih; simp only [march, hu]; exact hS _

/-- C39, what the body would compute if line 1444 called `self.q_op`: the intended value. -/
theorem C39_intended_partial (hC : C.Ok) (hK : K.Ok C) (hsf : SameOrder C.fe) (hsc : SameOrder K.fe) (w : World V)
    {f fF fS : Vec → Py Vec} (hf : Local K.full.size f) (hft : Total f) (hFt : Total fF) (hSt : Total fS)
    (hw : TwolvlReady C K w.obj f fF fS) (k k' : ℕ) :
    ∃ w', preTwolvlWith C (qOp C) (.user k) (.user k') w = (.ok (), w') ∧
      TwolvlSpec C K f fF fS (w.heap (.user k)) (w'.heap (.user k')) := by
  obtain ⟨r, hr⟩ := restricted_exists hC hK hsc (w.heap (.user k))
  obtain ⟨u, hu⟩ := hft r
  have h := qOp_run hC hK hsf hsc hf hw.q (b := .user k) (x := .tmp 3) (by simp [qScratch]) (by simp [qScratch]) hr
  rw [hu] at h
  obtain ⟨w₁, e₁, g₁, t₁⟩ := h
  obtain ⟨w₂, e₂, o₂, -, -, f₂, v₂⟩ := apply_run hC (w := w₁) (vin := .tmp 3) (vout := .tmp 4) (by rw [g₁.1]; exact hw.mf)
    (by simp [mfScratch]) (by simp [mfScratch])
  rw [if_neg (by simp)] at v₂
  have hb₂ : w₂.heap (.user k) = w.heap (.user k) := by
    rw [f₂ _ (by simp [mfScratch]) (by simp), g₁.2.2.2 _ (by simp [qScratch])]
  have h3₂ : w₂.heap (.tmp 3) = w₁.heap (.tmp 3) := f₂ _ (by simp [mfScratch]) (by simp)
  set w₃ := w₂.put (.tmp 5) (w.heap (.user k) - mfOp C (w₁.heap (.tmp 3))) with hw₃
  have m := preOld_run hC (w := w₃) (fF := fF) (fS := fS) (b := .tmp 5) (x := .tmp 6)
    (by change SolReady C w₂.obj fF fS; rw [o₂, g₁.1]; exact hw.sol) (by simp [oldScratch]) (by simp [oldScratch])
  have hb5 : w₃.heap (.tmp 5) = w.heap (.user k) - mfOp C (w₁.heap (.tmp 3)) := by rw [hw₃, put_same]
  rw [hb5] at m
  obtain ⟨m1, -, -, -, m5⟩ := m
  rcases hres : preTimeMarching C (.tmp 5) (.tmp 6) w₃ with ⟨e | ⟨⟩, w₄⟩
  · rw [hres] at m5
    obtain ⟨n, -, he, -⟩ := m5
    obtain ⟨v, hv⟩ := march_total (C := C) (l₀ := oldLoad C 0 0 0) (ln := oldCarry C) hFt hSt
      (w.heap (.user k) - mfOp C (w₁.heap (.tmp 3))) n
    rw [hv] at he; cases he
  · rw [hres] at m1 m5
    simp only at m1 m5
    have h3₄ : w₄.heap (.tmp 3) = w₁.heap (.tmp 3) := by
      rw [m1 _ (by simp [oldScratch]) (by simp), hw₃, put_ne _ (by simp), h3₂]
    refine ⟨(w₄.put (.user k') (w₄.heap (.tmp 6))).put (.user k') (w₄.heap (.tmp 6) + w₁.heap (.tmp 3)), ?_, ?_⟩
    · unfold preTwolvlWith
      rw [M.bind_ok e₁, M.bind_ok (M.attr_some (a := ()) (by rw [g₁.1]; exact hw.tmps)), M.bind_ok e₂,
        M.bind_ok (getVec_run _ _), M.bind_ok (setVec_run _ _ _), M.bind_ok (getVec_run _ _), M.bind_ok (getVec_run _ _),
        M.bind_ok (setVec_run _ _ _)]
      simp only [put_same, put_put, put_ne _ (show Ref.tmp 4 ≠ Ref.tmp 5 by simp), hb₂, v₂]
      rw [← hw₃, M.bind_ok hres, M.bind_ok (getVec_run _ _), M.bind_ok (setVec_run _ _ _), M.bind_ok (getVec_run _ _),
        M.bind_ok (getVec_run _ _), setVec_run]
      simp only [put_same, put_ne _ (show Ref.tmp 3 ≠ Ref.user k' by simp), h3₄, put_put]
    · refine ⟨r, u, w₁.heap (.tmp 3), hr, hu, t₁, fun n hn => ?_⟩
      obtain ⟨v, hv, hbe⟩ := m5.1 n hn
      refine ⟨v, hv, ?_⟩
      simp only [put_same, add_sub_cancel_right]
      exact hbe

/-! ## Reaching the prepared state -/

theorem prepareCoarse_prepared {w : World V} {u v : V} (h : w.obj = preparedObj C u v) (hs : w.NoFail) :
    (prepareCoarse C K w).1 = .ok () ∧ (prepareCoarse C K w).2.obj = { preparedObj C u v with
      coarseMaps := some (buildDofmapsFull C.D K.full), coarseNode := some K, coarseMat := some (coarseMatOf C K)
      fineTmps := some (), coarseTmps := some () } := by
  obtain ⟨o, hp, s, c⟩ := w
  simp only at h
  subst h
  have h' : ∀ k, s (c + k) = false := fun k => hs _ (Nat.le_add_right _ _)
  have h0 : s c = false := h' 0
  simp [prepareCoarse, M.bind_run, ext, h', h0, M.attr, preparedObj, modObj, setVec, M.modify, M.forList, add_assoc]

/-- The documented set-up followed by `prepare_coarse_grid_correction` and setting the three solvers
reaches a state in which everything is ready. -/
theorem C38_ready (hwp : C.D.wellPosed = false) {w₀ : World V} (h₀ : w₀.Fresh) (hs : w₀.NoFail) {sK sF sS : Solver}
    {f fF fS : Vec → Py Vec} (hK : sK.Computes K.full.size f) (hF : sF.Computes C.slab.size fF)
    (hS : sS.Computes C.slab.size fS) :
    TwolvlReady C K (runOps C [.setupFE, .prepare, .prepareCoarse K, .setSolverCoarse sK, .setSolverFirst sF,
      .setSolverSlab sS] w₀).obj f fF fS := by
  have i := inv_reach (C := C) h₀ [.setupFE, .prepare]
  have k := keep_reach (C := C) (Inv.of_fresh h₀) [.setupFE, .prepare]
  have hp := (prepareCoarse_prepared (K := K) (documented (C := C) h₀ hs) (NoFail.of_keep hs k)).2
  have e : (runOps C [.setupFE, .prepare, .prepareCoarse K, .setSolverCoarse sK, .setSolverFirst sF,
      .setSolverSlab sS] w₀).obj = { preparedObj C 0 0 with
      coarseMaps := some (buildDofmapsFull C.D K.full), coarseNode := some K, coarseMat := some (coarseMatOf C K)
      fineTmps := some (), coarseTmps := some (), solverCoarse := some sK, solverFirst := some sF
      solverSlab := some sS } := by
    rw [show ([.setupFE, .prepare, .prepareCoarse K, .setSolverCoarse sK, .setSolverFirst sF,
      .setSolverSlab sS] : List (Op V)) = [.setupFE, .prepare] ++ ([.prepareCoarse K] ++ [.setSolverCoarse sK,
      .setSolverFirst sF, .setSolverSlab sS]) from rfl, runOps_append, runOps_append]
    generalize runOps C [.setupFE, .prepare] w₀ = w₁ at hp ⊢
    have hp' : (runOps C [.prepareCoarse K] w₁).obj = _ := hp
    generalize runOps C [.prepareCoarse K] w₁ = w₂ at hp' ⊢
    have : (runOps C [.setSolverCoarse sK, .setSolverFirst sF, .setSolverSlab sS] w₂).obj = { w₂.obj with
        solverCoarse := some sK, solverFirst := some sF, solverSlab := some sS } := rfl
    rw [this, hp']
  rw [e]
  exact ⟨⟨⟨rfl, rfl, rfl⟩, rfl, sK, rfl, hK⟩,
    ⟨rfl, by simp [preparedObj, hwp], by simp [preparedObj, hwp], fun _ => rfl, fun _ => rfl⟩,
    ⟨rfl, ⟨sF, rfl, hF⟩, fun _ => ⟨sS, rfl, hS⟩⟩, rfl⟩

/-- Without a right-hand side having been set up, `prepare_coarse_grid_correction` raises. -/
theorem C38_needs_rhs {w : World V} (hl : w.obj.lfi = none) : (prepareCoarse C K w).1 ≠ .ok () := by
  obtain ⟨o, hp, s, c⟩ := w
  simp only at hl
  rcases hd : o.dofmaps with _ | d <;> rcases h0 : s c with _ | _ <;> rcases h1 : s (c + 1) with _ | _ <;>
  simp [prepareCoarse, M.bind_run, ext, M.attr, hd, hl, h0, h1, modObj, setVec, M.modify]

namespace Example
open Polynomial

/-- Quadratic fine space, linear coarse space, equal orders for primal and dual variables. -/
noncomputable def feMono (m : ℕ) : FE ℝ[X] := ⟨m, fun s => X ^ s, m, fun s => X ^ s⟩

noncomputable def cfgMono : Cfg ℝ[X] where
  S := polySpace
  D := disc false false
  fe := feMono 3
  full := stdSpace (fullSizes 1 1 2) (feMono 3).m
  slab := stdSpace (slabSizes 1 1) (feMono 3).m
  coup := stdSpace couplingSizes (feMono 3).m
  bnd := stdSpace bndSizes (feMono 3).m
  pts := []
  ws := []
  T := 1
  dsol _ := 0
  ptsHo := []
  wsHo := []
  samples := []

theorem cfgMono_ok : cfgMono.Ok where
  disc := disc_ok _ _
  full := stdSpace_ok _ _
  fullN := rfl
  slab := stdSpace_ok _ _
  slabN := rfl
  coup := stdSpace_ok _ _
  coupN := rfl
  bnd := stdSpace_ok _ _
  bndN := rfl

def trunc (m : ℕ) (a : Vec) : Vec := fun s => if s < m then a s else 0

noncomputable def coarse : CoarseMesh ℝ[X] where
  S := polySpace
  indOf := id
  fe := feMono 2
  full := stdSpace (fullSizes 1 1 2) (feMono 2).m
  toFine := trunc 2
  toCoarse := trunc 2

theorem coarse_ok : coarse.Ok cfgMono := ⟨stdSpace_ok _ _, rfl⟩
theorem mono_same (m : ℕ) : SameOrder (feMono m) := rfl

theorem coarse_nested : Nested cfgMono coarse := by
  intro a _ s hs
  change s < 2 at hs
  have h3 : s < 3 := by omega
  have : cfgMono.fe.mP = 3 := rfl
  simp only [coarse, trunc, hs, this, h3, if_true]

theorem trunc_linear (m : ℕ) : VecLinear (trunc m) := by
  intro a a' x x'
  funext s
  simp only [trunc, Pi.add_apply, Pi.smul_apply, smul_eq_mul]
  split <;> ring

/-- The coarse solver "multiply by two", on the entries of the system. -/
def scaleLocal (n : ℕ) : Vec → Py Vec := fun r => .ok (trunc n ((2 : ℝ) • r))

theorem scaleLocal_local (n : ℕ) : Local n (scaleLocal n) := by
  intro b b' h
  simp only [scaleLocal]
  congr 1
  funext s
  unfold trunc
  split
  · next hs => simp [h s hs]
  · rfl

theorem scaleLocal_linear (n : ℕ) : SolLinear n (scaleLocal n) := by
  intro a a' r r' u u' h h'
  cases h; cases h'
  refine ⟨_, rfl, fun e he => ?_⟩
  simp [trunc, he]; ring

noncomputable def coarseWorld (heap : Ref → Vec) : World ℝ[X] :=
  runOps cfgMono [.setupFE, .prepare, .prepareCoarse coarse, .setSolverCoarse (solverOf (scaleLocal coarse.full.size)),
    .setSolverFirst (solverOf scaleSol), .setSolverSlab (solverOf scaleSol)] (freshWorld heap)

theorem coarseWorld_ready (heap : Ref → Vec) : TwolvlReady cfgMono coarse (coarseWorld heap).obj
    (scaleLocal coarse.full.size) scaleSol scaleSol :=
  C38_ready rfl (freshWorld_fresh heap) (freshWorld_noFail heap) (solverOf_computes _ _) (solverOf_computes _ _)
    (solverOf_computes _ _)

theorem user_node (k : ℕ) : (Ref.user k) ∉ nodeRefs := by simp [nodeRefs]
theorem user_q (k : ℕ) : (Ref.user k) ∉ qScratch := by simp [qScratch]

example (heap : Ref → Vec) := C37_prolongation cfgMono_ok coarse_ok (mono_same 3) (mono_same 2) (coarseWorld heap)
  (coarseWorld_ready heap).q.toCoarseReady (xc := .user 0) (xf := .user 1) (by simp) (user_node 0) (user_node 1)
example (heap : Ref → Vec) := C37_restriction cfgMono_ok coarse_ok (mono_same 3) (mono_same 2) (coarseWorld heap)
  (coarseWorld_ready heap).q.toCoarseReady (xc := .user 0) (xf := .user 1) (by simp) (user_node 0) (user_node 1)
example (heap : Ref → Vec) := C37_round_trip cfgMono_ok coarse_ok (mono_same 3) (mono_same 2) coarse_nested
  (coarseWorld heap) (coarseWorld_ready heap).q.toCoarseReady (xc := .user 0) (xf := .user 1) (xc' := .user 2) (by simp)
  (by simp) (user_node 0) (user_node 1) (user_node 2)
example (heap heap' : Ref → Vec) (h : ∀ d < coarse.full.size, (coarseWorld heap).heap (.user 0) d
    = (coarseWorld heap').heap (.user 0) d) :=
  C37_every_entry cfgMono_ok coarse_ok (mono_same 3) (mono_same 2) (coarseWorld heap) (coarseWorld heap')
    (coarseWorld_ready heap).q.toCoarseReady (coarseWorld_ready heap').q.toCoarseReady (xc := .user 0) (xf := .user 1)
    (by simp) (user_node 0) (user_node 1) h
example (heap : Ref → Vec) := C38_value cfgMono_ok coarse_ok (mono_same 3) (mono_same 2) (coarseWorld heap)
  (scaleLocal_local _) (coarseWorld_ready heap).q (user_q 0) (user_q 1)
example (h₁ h₂ h₃ : Ref → Vec) := C38_linear cfgMono_ok coarse_ok (mono_same 3) (mono_same 2) (trunc_linear 2)
  (trunc_linear 2) (coarseWorld h₁) (coarseWorld h₂) (coarseWorld h₃) (scaleLocal_local _) (scaleLocal_linear _)
  (coarseWorld_ready h₁).q (coarseWorld_ready h₂).q (coarseWorld_ready h₃).q (user_q 0) (user_q 1)
example (heap : Ref → Vec) := C39_intended_partial cfgMono_ok coarse_ok (mono_same 3) (mono_same 2) (coarseWorld heap)
  (scaleLocal_local _) (fun _ => ⟨_, rfl⟩) (fun _ => ⟨_, rfl⟩) (fun _ => ⟨_, rfl⟩) (coarseWorld_ready heap) 0 1

/-- A left inverse: the coarse solver above inverts the matrix with `1/2` on the diagonal. -/
noncomputable def halfMat (n : ℕ) : Mat := ⟨n, fun d d' => if d = d' then 1 / 2 else 0⟩

theorem scaleLocal_leftInverse (n : ℕ) : LeftInverse (scaleLocal n) (halfMat n) := by
  intro v
  refine ⟨_, rfl, fun e he => ?_⟩
  change e < n at he
  simp [trunc, halfMat, Mat.mult, he]

example (heap : Ref → Vec) (y : Vec) := C38_exact_on_coarse cfgMono_ok coarse_ok (mono_same 3) (mono_same 2)
  coarse_nested (coarseWorld heap) (scaleLocal_local _) (coarseWorld_ready heap).q (user_q 0) (user_q 1)
  (A := halfMat _) rfl (scaleLocal_leftInverse _) y

/-- C39 is false. -/
theorem C39_violated : ¬ C39_statement ℝ[X] := by
  intro h
  obtain ⟨w', e, -⟩ := h cfgMono coarse (coarseWorld fun _ => 0) _ _ _ 0 1 cfgMono_ok coarse_ok (mono_same 3)
    (mono_same 2) (scaleLocal_local _) (fun _ => ⟨_, rfl⟩) (fun _ => ⟨_, rfl⟩) (fun _ => ⟨_, rfl⟩)
    (coarseWorld_ready _) (by simp)
  rw [C39_always_fails] at e
  cases congrArg Prod.fst e

/-- Different primal and dual orders: two dofs against three. -/
noncomputable def feMixed : FE ℝ[X] := ⟨2, fun s => X ^ s, 3, fun s => X ^ s⟩

noncomputable def cfgMixed : Cfg ℝ[X] := { cfgMono with
  fe := feMixed
  full := stdSpace (fullSizes 1 1 2) feMixed.m, slab := stdSpace (slabSizes 1 1) feMixed.m
  coup := stdSpace couplingSizes feMixed.m, bnd := stdSpace bndSizes feMixed.m }

noncomputable def coarseMixed : CoarseMesh ℝ[X] := { coarse with
  fe := feMixed, full := stdSpace (fullSizes 1 1 2) feMixed.m }

theorem cfgMixed_ok : cfgMixed.Ok where
  disc := disc_ok _ _
  full := stdSpace_ok _ _
  fullN := rfl
  slab := stdSpace_ok _ _
  slabN := rfl
  coup := stdSpace_ok _ _
  coupN := rfl
  bnd := stdSpace_ok _ _
  bndN := rfl

theorem mixedReady (heap : Ref → Vec) : CoarseReady cfgMixed coarseMixed (runOps cfgMixed [.setupFE, .prepare,
    .prepareCoarse coarseMixed, .setSolverCoarse (solverOf scaleSol), .setSolverFirst (solverOf scaleSol),
    .setSolverSlab (solverOf scaleSol)] (freshWorld heap)).obj :=
  (C38_ready (C := cfgMixed) (K := coarseMixed) rfl (freshWorld_fresh heap) (freshWorld_noFail heap)
    (solverOf_computes _ _) (solverOf_computes _ _) (solverOf_computes _ _)).q.toCoarseReady

example (heap : Ref → Vec) := C37_prolongation_shape_error cfgMixed_ok (K := coarseMixed) ⟨stdSpace_ok _ _, rfl⟩
  (show 1 ≤ 2 by decide) (by simp [ShapesFit, coarseMixed, cfgMixed, feMixed]) _ (mixedReady heap) (xc := .user 0)
  (user_node 1)
example (heap : Ref → Vec) := C37_restriction_shape_error cfgMixed_ok (K := coarseMixed) ⟨stdSpace_ok _ _, rfl⟩
  (show 1 ≤ 2 by decide) (by simp [ShapesFit, coarseMixed, cfgMixed, feMixed]) _ (mixedReady heap) (xf := .user 0)
  (user_node 1)

end Example
end Dxss
