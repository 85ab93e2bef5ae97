import Verif.Props.Requests

/-!
# C33: which initial data the first right-hand side is built from

`C33_initial_data_partial` speaks of a new object.  Here calls may precede the choice, as long as none of them builds the
right-hand side: setting the finite elements up (again) discards the data chosen before, and of several choices the last one
counts.
-/

namespace Dxss
variable {V : Type} [AddCommGroup V] [Module ℝ V] {C : Cfg V}

theorem rhs_unbuilt {w₀ : World V} (h₀ : w₀.Fresh) {ops : List (Op V)} (hb : ∀ op ∈ ops, ¬ op.BuildsRhs) :
    (runOps C ops w₀).obj.rhs = none := by
  have h : ∀ (l : List (Op V)) (w : World V), (∀ op ∈ l, ¬ op.BuildsRhs) → (runOps C l w).obj.rhs = w.obj.rhs := by
    intro l
    induction l with
    | nil => exact fun _ _ => rfl
    | cons op l ih =>
      intro w hl
      exact (ih _ fun o ho => hl o (by simp [ho])).trans
        (congrArg Prod.snd (frame_rhs (C := C) op (hl op (by simp)) w))
  rw [h ops w₀ hb, h₀]

/-- The right-hand side requested after `ops'`, when `u`, `v` are in place before them. -/
theorem rhs_of_initial {w : World V} (i : Inv C w) {u v : V} (h1 : w.obj.u10 = some u) (h2 : w.obj.u20 = some v)
    (hr : w.obj.rhs = none) {ops : List (Op V)} (hops : ∀ op ∈ ops, ¬ op.WritesInitial) {r : Ref} {w₁ : World V}
    (h : getSpacetimeRhs C (runOps C ops w) = (.ok r, w₁)) : w₁.heap r = rhsVecOf C u v := by
  have k1 : RhsFrom C u v (runOps C ops w) := rhsFrom_ops u v hops ⟨i, h1, h2, .inl hr⟩
  have k2 := rhsFrom_op (C := C) u v .getRhs id _ k1
  obtain ⟨rfl, hr'⟩ := getSpacetimeRhs_post h
  have e : (runOp C .getRhs (runOps C ops w)).2 = w₁ := by
    change ((getSpacetimeRhs C).void _).2 = _
    rw [void_snd, h]
  rw [e] at k2
  exact k2.2.2.2.resolve_left (by rw [hr']; simp)

/-- C33: setting the finite elements up discards initial data chosen before. -/
theorem C33_reset_partial {w₀ : World V} (h₀ : w₀.Fresh) (ops ops' : List (Op V)) (hb : ∀ op ∈ ops, ¬ op.BuildsRhs)
    {w : World V} (hs : setupFE C (runOps C ops w₀) = (.ok (), w)) (hops : ∀ op ∈ ops', ¬ op.WritesInitial)
    {r : Ref} {w₁ : World V} (h : getSpacetimeRhs C (runOps C ops' w) = (.ok r, w₁)) :
    w₁.heap r = rhsVecOf C 0 0 := by
  have e : (runOp C .setupFE (runOps C ops w₀)).2 = w := by
    change (setupFE C _).2 = _
    rw [hs]
  have i : Inv C w := by
    have := inv_reach (C := C) h₀ (ops ++ [.setupFE])
    rw [runOps, List.foldl_append] at this
    exact e ▸ this
  have hr : w.obj.rhs = none := by
    rw [← e, show (runOp C .setupFE (runOps C ops w₀)).2.obj.rhs = (runOps C ops w₀).obj.rhs from
      congrArg Prod.snd (frame_rhs (C := C) .setupFE id _)]
    exact rhs_unbuilt h₀ hb
  have hu : w.obj.u10 = some 0 ∧ w.obj.u20 = some 0 := by
    revert hs
    generalize runOps C ops w₀ = w'
    intro hs
    unfold setupFE at hs
    rw [M.bind_run] at hs
    rcases hx : (ext : WM V Unit) w' with ⟨_ | _, w''⟩ <;> rw [hx] at hs
    · cases hs
    · simp [M.bind_run, modObj, setVec, M.modify] at hs
      subst hs
      exact ⟨rfl, rfl⟩
  exact rhs_of_initial i hu.1 hu.2 hr hops h

/-- C33: of several choices the last one counts. -/
theorem C33_latest_partial {w₀ : World V} (h₀ : w₀.Fresh) (ops ops' : List (Op V)) (hb : ∀ op ∈ ops, ¬ op.BuildsRhs)
    (u v : V) {w : World V} (hs : setInitial u v (runOps C ops w₀) = (.ok (), w))
    (hops : ∀ op ∈ ops', ¬ op.WritesInitial)
    {r : Ref} {w₁ : World V} (h : getSpacetimeRhs C (runOps C ops' w) = (.ok r, w₁)) :
    w₁.heap r = rhsVecOf C u v := by
  have e : (runOp C (.setInitial u v) (runOps C ops w₀)).2 = w := by
    change (setInitial u v _).2 = _
    rw [hs]
  have i : Inv C w := by
    have := inv_reach (C := C) h₀ (ops ++ [.setInitial u v])
    rw [runOps, List.foldl_append] at this
    exact e ▸ this
  have hr : w.obj.rhs = none := by
    rw [← e, show (runOp C (.setInitial u v) (runOps C ops w₀)).2.obj.rhs = (runOps C ops w₀).obj.rhs from
      congrArg Prod.snd (frame_rhs (C := C) (.setInitial u v) id _)]
    exact rhs_unbuilt h₀ hb
  have hu : w.obj.u10 = some u ∧ w.obj.u20 = some v := by
    revert hs
    generalize runOps C ops w₀ = w'
    intro hs
    obtain ⟨o, hp, s, c⟩ := w'
    rcases ha : o.u10 with _ | a <;> rcases hb : o.u20 with _ | b <;>
      simp [setInitial, M.bind_run, M.attr, modObj, M.modify, ha, hb] at hs
    subst hs
    exact ⟨rfl, rfl⟩
  exact rhs_of_initial i hu.1 hu.2 hr hops h

namespace Example
open Polynomial

/-- Initial data are chosen, the errors of a vector measured, the finite elements set up again: the right-hand side is the
one of vanishing initial data. -/
example (heap : Ref → Vec) (u v : ℝ[X]) :
    ∃ w r w₁, setupFE (cfg false true) (runOps (cfg false true) [.setupFE, .setInitial u v, .errors (.user 0)]
        (freshWorld heap)) = (.ok (), w) ∧
      getSpacetimeRhs (cfg false true) (runOps (cfg false true) [.getMatrix false] w) = (.ok r, w₁) ∧
      w₁.heap r = rhsVecOf (cfg false true) 0 0 := by
  have hn : (runOps (cfg false true) [.setupFE, .setInitial u v, .errors (.user 0)] (freshWorld heap)).NoFail :=
    NoFail.of_keep (freshWorld_noFail heap) (keep_reach (Inv.of_fresh (freshWorld_fresh heap)) _)
  have hs : ∃ w, setupFE (cfg false true) (runOps (cfg false true) [.setupFE, .setInitial u v, .errors (.user 0)]
      (freshWorld heap)) = (.ok (), w) := by
    revert hn
    generalize runOps (cfg false true) [.setupFE, .setInitial u v, .errors (.user 0)] (freshWorld heap) = w'
    intro hn
    have hc := hn w'.clock le_rfl
    exact ⟨_, by simp [setupFE, M.bind_run, ext, hc, modObj, setVec, M.modify]; rfl⟩
  obtain ⟨w, hs⟩ := hs
  obtain ⟨w₁, h⟩ := getRhs_after (cfg false true) heap u v [.errors (.user 0), .setupFE, .getMatrix false]
  have hw : runOps (cfg false true) (.setupFE :: .setInitial u v :: [.errors (.user 0), .setupFE, .getMatrix false])
      (freshWorld heap) = runOps (cfg false true) [.getMatrix false] w := by
    change runOps _ [.getMatrix false] (setupFE _ _).2 = _
    exact congrArg (fun x => runOps _ [.getMatrix false] (Prod.snd x)) hs
  rw [hw] at h
  exact ⟨w, .rhs, w₁, hs, h, C33_reset_partial (freshWorld_fresh heap) _ _ (by simp [Op.BuildsRhs]) hs
    (by simp [Op.WritesInitial]) h⟩

end Example
end Dxss
