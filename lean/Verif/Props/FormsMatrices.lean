import Verif.Props.PublicApi
import Verif.Props.Rhs

/-!
# C121: the forms handed out belong to the matrices handed out
-/

namespace Dxss
open Finset
set_option linter.unusedSectionVars false
variable {V : Type} [AddCommGroup V] [Module ℝ V] {C : Cfg V}

/-- Testing the product of `A` with the coefficients `x` against the coefficients `y` evaluates the form `F` on the
two functions of the space `L` these coefficients describe. -/
def Mat.OfForm (A : Mat) (C : Cfg V) (L : FSpace) (F : List Term) : Prop := A.size = L.size ∧
  ∀ x y : Vec, ∑ d ∈ range L.size, A.mult x d * y d = evalForm C.S C.D.ind F (L.field C.fe x) (L.field C.fe y)

theorem inv_of_bfi {w₀ w₁ : World V} (h₀ : w₀.Fresh) (ops : List (Op V)) {p : Bool} {F : List Term}
    (h : getSpacetimeBfi C p (runOps C ops w₀) = (.ok F, w₁)) : Inv C w₁ := by
  have := (hist_getSpacetimeBfi (b := false) p _ (inv_reach (C := C) h₀ ops)).1
  rw [h] at this; exact this

theorem inv_of_mat {w₀ w₁ : World V} (h₀ : w₀.Fresh) (ops : List (Op V)) {p : Bool} {A : Mat}
    (h : getSpacetimeMatrix C p (runOps C ops w₀) = (.ok A, w₁)) : Inv C w₁ := by
  have := (hist_getSpacetimeMatrix (b := false) p _ (inv_reach (C := C) h₀ ops)).1
  rw [h] at this; exact this

theorem ofForm_of_inv (hC : C.Ok) {w : World V} (i : Inv C w) {F : List Term} {A : Mat}
    (hF : w.obj.stBfi = some F) (hA : w.obj.stMat = some A) : A.OfForm C C.full F := by
  rcases i.st with ⟨e, -⟩ | ⟨p, e1, e2⟩
  · rw [e] at hF; cases hF
  · rw [e1] at hF; rw [e2] at hA
    cases hF; cases hA
    exact ⟨rfl, fun x y => assemble_pair _ _ _ _ _ hC.full x y⟩

/-- C121: the form of `get_spacetime_bfi` and the matrix of `get_spacetime_matrix` belong together, whatever flags
were requested before, with whichever flags the two are requested, and whatever is called in between (form first). -/
theorem C121_form_then_matrix (hC : C.Ok) {w₀ : World V} (h₀ : w₀.Fresh) (before after : List (Op V)) (p p' : Bool)
    {F : List Term} {A : Mat} {w₁ w₂ : World V} (hF : getSpacetimeBfi C p (runOps C before w₀) = (.ok F, w₁))
    (hA : getSpacetimeMatrix C p' (runOps C after w₁) = (.ok A, w₂)) : A.OfForm C C.full F := by
  have i₁ := inv_of_bfi h₀ before hF
  have hm := getSpacetimeMatrix_post hA
  have i' : Inv C (runOps C after w₁) := (hist_ops (b := false) (fun h => by cases h) i₁).1
  have hist := hist_getSpacetimeMatrix (C := C) (b := false) p' _ i'
  rw [hA] at hist
  exact ofForm_of_inv hC hist.1 (hist.2.stBfi _ ((keep_reach i₁ after).stBfi _ (getSpacetimeBfi_post hF))) hm

/-- C121, matrix first. -/
theorem C121_matrix_then_form (hC : C.Ok) {w₀ : World V} (h₀ : w₀.Fresh) (before after : List (Op V)) (p p' : Bool)
    {F : List Term} {A : Mat} {w₁ w₂ : World V} (hA : getSpacetimeMatrix C p (runOps C before w₀) = (.ok A, w₁))
    (hF : getSpacetimeBfi C p' (runOps C after w₁) = (.ok F, w₂)) : A.OfForm C C.full F := by
  have i₁ := inv_of_mat h₀ before hA
  have hm := getSpacetimeBfi_post hF
  have i' : Inv C (runOps C after w₁) := (hist_ops (b := false) (fun h => by cases h) i₁).1
  have hist := hist_getSpacetimeBfi (C := C) (b := false) p' _ i'
  rw [hF] at hist
  exact ofForm_of_inv hC hist.1 hm (hist.2.stMat _ ((keep_reach i₁ after).stMat _ (getSpacetimeMatrix_post hA)))

theorem getSlabBfi_eq {w₀ w₁ : World V} (h₀ : w₀.Fresh) (ops : List (Op V)) {F : List Term}
    (h : getSlabBfi C (runOps C ops w₀) = (.ok (some F), w₁)) : F = C.D.slabForm true := by
  have i₁ : Inv C w₁ := by
    have := (hist_getSlabBfi (b := false) _ (inv_reach (C := C) h₀ ops)).1
    rw [h] at this; exact this
  refine i₁.slabBfi F ?_
  unfold getSlabBfi at h
  rw [M.bind_ok (M.get_run _)] at h
  have fin : ∀ w' : World V, (do
      let w' ← M.get
      return w'.obj.slabBfi : WM V _) w' = (.ok (some F), w₁) → w₁.obj.slabBfi = some F := fun w' e => by
    have e1 : w' = w₁ := congrArg Prod.snd e
    rw [← e1]; exact Except.ok.inj (congrArg Prod.fst e)
  split at h
  · obtain ⟨_, w', -, h⟩ := M.ok_bind h
    obtain ⟨_, w'', -, h⟩ := M.ok_bind h
    exact fin _ h
  · exact fin _ h

/-- C121, slabs: the form of `get_slab_bfi` is that of `get_slab_matrix`, and the form of `get_slab_bfi_first_slab`
that of `get_slab_matrix_first_slab`, after whatever histories the two are requested. -/
theorem C121_slab_forms (hC : C.Ok) {w₀ v₀ : World V} (h₀ : w₀.Fresh) (g₀ : v₀.Fresh) (ops ops' : List (Op V))
    {F : List Term} {A : Mat} {w₁ v₁ : World V} :
    (getSlabBfi C (runOps C ops w₀) = (.ok (some F), w₁) → getSlabMatrix C (runOps C ops' v₀) = (.ok (some A), v₁) →
      A.OfForm C C.slab F) ∧
    (getSlabBfiFirst (runOps C ops w₀) = (.ok (some F), w₁) →
      getSlabMatrixFirst (runOps C ops' v₀) = (.ok (some A), v₁) → A.OfForm C C.slab F) := by
  refine ⟨fun hF hA => ?_, fun hF hA => ?_⟩
  · rw [getSlabBfi_eq h₀ ops hF, getSlabMatrix_eq g₀ ops' hA]
    exact ⟨rfl, fun x y => assemble_pair _ _ _ _ _ hC.slab x y⟩
  · rw [(inv_reach (C := C) h₀ ops).firstBfi F (Except.ok.inj (congrArg Prod.fst hF)),
      getSlabMatrixFirst_eq g₀ ops' hA]
    exact ⟨rfl, fun x y => assemble_pair _ _ _ _ _ hC.slab x y⟩

theorem rhs_of_inv (hC : C.Ok) {w : World V} (i : Inv C w) {F : List (LTerm V)} (hF : w.obj.lfi = some F) (y : Vec) :
    ∑ d ∈ range C.full.size, w.heap .rhs d * y d = evalLin C.S C.D.ind F (C.full.field C.fe y) := by
  rcases i.rhs with ⟨e, -⟩ | ⟨u, v, e, -, hh⟩
  · rw [e] at hF; cases hF
  · rw [e] at hF; cases hF
    rw [hh]
    exact assembleVec_pair _ _ _ _ hC.full _ y

/-- C121, right-hand side: the form of `get_spacetime_lfi` and the vector of `get_spacetime_rhs` belong together,
whatever is called in between except a direct `setup_rhs()` (form first). -/
theorem C121_rhs_form (hC : C.Ok) {w₀ : World V} (h₀ : w₀.Fresh) (before after : List (Op V))
    (hafter : ∀ op ∈ after, op ≠ .setupRhs) {F : List (LTerm V)} {r : Ref} {w₁ w₂ : World V}
    (hF : getSpacetimeLfi C (runOps C before w₀) = (.ok F, w₁))
    (hr : getSpacetimeRhs C (runOps C after w₁) = (.ok r, w₂)) (y : Vec) :
    ∑ d ∈ range C.full.size, w₂.heap r d * y d = evalLin C.S C.D.ind F (C.full.field C.fe y) := by
  have i₁ : Inv C w₁ := by
    have := (hist_getSpacetimeLfi (b := false) _ (inv_reach (C := C) h₀ before)).1
    rw [hF] at this; exact this
  have hl := getSpacetimeLfi_post hF
  have hs : w₁.obj.rhs ≠ none := by
    rcases i₁.rhs with ⟨e, -⟩ | ⟨u, v, -, e, -⟩
    · rw [e] at hl; cases hl
    · rw [e]; simp
  obtain ⟨i₂, k₂⟩ := hist_ops (b := true) (fun _ => hafter) i₁
  obtain ⟨a1, a2, -⟩ := k₂.rhs rfl hs
  have hist := hist_getSpacetimeRhs (C := C) (b := true) _ i₂
  rw [hr] at hist
  obtain ⟨rfl, -⟩ := getSpacetimeRhs_post hr
  obtain ⟨b1, -, -⟩ := hist.2.rhs rfl (by rw [a2]; exact hs)
  exact rhs_of_inv hC hist.1 (by rw [b1, a1, hl]) y

/-- C121, right-hand side, vector first: its content when the form is returned is that of the form, and it is the
content it had when it was returned. -/
theorem C121_form_of_rhs (hC : C.Ok) {w₀ : World V} (h₀ : w₀.Fresh) (before after : List (Op V))
    (hafter : ∀ op ∈ after, op ≠ .setupRhs) {F : List (LTerm V)} {r : Ref} {w₁ w₂ : World V}
    (hr : getSpacetimeRhs C (runOps C before w₀) = (.ok r, w₁))
    (hF : getSpacetimeLfi C (runOps C after w₁) = (.ok F, w₂)) (y : Vec) :
    ∑ d ∈ range C.full.size, w₂.heap r d * y d = evalLin C.S C.D.ind F (C.full.field C.fe y) ∧
      w₂.heap r = w₁.heap r := by
  have i₁ : Inv C w₁ := by
    have := (hist_getSpacetimeRhs (b := false) _ (inv_reach (C := C) h₀ before)).1
    rw [hr] at this; exact this
  obtain ⟨rfl, hs⟩ := getSpacetimeRhs_post hr
  obtain ⟨i₂, k₂⟩ := hist_ops (b := true) (fun _ => hafter) i₁
  obtain ⟨-, a2, a3⟩ := k₂.rhs rfl (by rw [hs]; simp)
  have hist := hist_getSpacetimeLfi (C := C) (b := true) _ i₂
  rw [hF] at hist
  obtain ⟨-, -, b3⟩ := hist.2.rhs rfl (by rw [a2, hs]; simp)
  exact ⟨rhs_of_inv hC hist.1 (getSpacetimeLfi_post hF) y, b3.trans a3⟩

/-! ## Non-vacuity -/

namespace Example

/-- The form requested with the preconditioner's terms, the matrix without: both calls succeed. -/
theorem mixed_requests (C : Cfg V) : ∃ F A w₁ w₂,
    getSpacetimeBfi C true (runOps C [.setupFE] (freshWorld fun _ => 0)) = (.ok F, w₁) ∧
    getSpacetimeMatrix C false (runOps C [.getRhs] w₁) = (.ok A, w₂) := by
  obtain ⟨w₁, h⟩ : ∃ w₁, getSpacetimeBfi C true (runOps C [.setupFE] (freshWorld fun _ => 0))
      = (.ok (C.D.stForm true), w₁) := by
    refine ⟨_, Prod.ext ?_ rfl⟩
    simp [runOps, runOp, setupFE, freshWorld, M.bind_run, ext, modObj, setVec, M.modify, getSpacetimeBfi, M.get,
      setupSpacetimeMatrix, M.attr]
    rfl
  have i₁ := inv_of_bfi (freshWorld_fresh _) _ h
  have hb := getSpacetimeBfi_post h
  have hm : w₁.obj.stMat = some (stMatOf C true) ∨ w₁.obj.stMat = some (stMatOf C false) := by
    rcases i₁.st with ⟨e, -⟩ | ⟨p, -, e⟩
    · rw [e] at hb; cases hb
    · cases p
      · exact .inr e
      · exact .inl e
  have key : ∀ A, w₁.obj.stMat = some A →
      getSpacetimeMatrix C false (runOps C [.getRhs] w₁) = (.ok A, runOps C [.getRhs] w₁) := fun A e => by
    have hk := (keep_reach i₁ [.getRhs]).stMat _ e
    unfold getSpacetimeMatrix
    rw [M.bind_ok (M.get_run _)]
    simp only [hk]; rfl
  rcases hm with e | e
  · exact ⟨_, _, _, _, h, key _ e⟩
  · exact ⟨_, _, _, _, h, key _ e⟩

example : ∃ (F : List Term) (A : Mat), A.OfForm (cfg true true) (cfg true true).full F := by
  obtain ⟨F, A, w₁, w₂, h, h'⟩ := mixed_requests (cfg true true)
  exact ⟨F, A, C121_form_then_matrix (cfg_ok true true) (freshWorld_fresh _) _ _ _ _ h h'⟩

/-- Form and vector of the right-hand side are both available after the set-up. -/
example : ∃ F w₁ r w₂,
    getSpacetimeLfi (cfg true true) (runOps (cfg true true) [.setupFE] (freshWorld fun _ => 0)) = (.ok F, w₁) ∧
    getSpacetimeRhs (cfg true true) (runOps (cfg true true) [.write 0 (unitVec 0)] w₁) = (.ok r, w₂) := by
  refine ⟨_, _, _, _, Prod.ext ?_ rfl, Prod.ext ?_ rfl⟩
  · simp [runOps, runOp, setupFE, freshWorld, M.bind_run, ext, modObj, setVec, M.modify, getSpacetimeLfi, M.get,
      setupRhs, M.attr]
  · simp [runOps, runOp, setupFE, freshWorld, M.bind_run, ext, modObj, setVec, M.modify, getSpacetimeLfi, M.get,
      setupRhs, getSpacetimeRhs]

/-- Form and matrix of a slab likewise. -/
example : ∃ F w₁ A w₂,
    getSlabBfi (cfg true true) (runOps (cfg true true) [.setupFE] (freshWorld fun _ => 0)) = (.ok (some F), w₁) ∧
    getSlabMatrix (cfg true true) (runOps (cfg true true) [.setupFE] (freshWorld fun _ => 0))
      = (.ok (some A), w₂) := by
  refine ⟨_, _, _, _, Prod.ext ?_ rfl, Prod.ext ?_ rfl⟩
  · simp [runOps, runOp, setupFE, freshWorld, M.bind_run, ext, modObj, setVec, M.modify, getSlabBfi, M.get,
      setupSlabMatrix, M.attr]
    rfl
  · simp [runOps, runOp, setupFE, freshWorld, M.bind_run, ext, modObj, setVec, M.modify, getSlabMatrix, M.get,
      setupSlabMatrix, M.attr]
    rfl

end Example

end Dxss
