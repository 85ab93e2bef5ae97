import Verif.Lemmas.Renumber
import Verif.Props.Setup

/-!
# Property C100: the numbering of the degrees of freedom does not matter

DOLFINx chooses how the degrees of freedom of the mixed spaces are numbered; dxss finds its way through the index tables `collapse` returns.
Two objects with the same data whose spaces are numbered differently behave alike: every call has the same outcome, the vectors
and matrices of one are those of the other read in the other numbering, and error reports and plot tables are equal.
-/

namespace Dxss
open Finset
variable {V : Type} [AddCommGroup V] [Module ℝ V]

/-- The two configurations differ in their function spaces only. -/
def Cfg.SameBut (C C' : Cfg V) : Prop := C' = { C with full := C'.full, slab := C'.slab, coup := C'.coup, bnd := C'.bnd }

/-- The two vectors have the same coefficient for every component, time index and spatial basis function (and agree beyond the
last dof, where a vector of that space has no entries). -/
structure VecCorr (m : Fin 4 → ℕ) (L L' : FSpace) (v v' : Vec) : Prop where
  coeff : ∀ c i s, i < L.nsub c → s < m c → v' (L'.dof c i s) = v (L.dof c i s)
  rest : ∀ d, L.size ≤ d → v' d = v d

/-- The two matrices have the same entry for every pair of basis functions. -/
structure MatCorr (m : Fin 4 → ℕ) (L L' : FSpace) (A A' : Mat) : Prop where
  size : A'.size = A.size
  entry : ∀ c i s c₁ i₁ s₁, i < L.nsub c → s < m c → i₁ < L.nsub c₁ → s₁ < m c₁ →
    A'.a (L'.dof c i s) (L'.dof c₁ i₁ s₁) = A.a (L.dof c i s) (L.dof c₁ i₁ s₁)

/-- Given corresponding vectors, the two solvers do the same. -/
def SolverCorr (m : Fin 4 → ℕ) (L L' : FSpace) (s s' : Solver) : Prop := ∀ b b' x x', VecCorr m L L' b b' → VecCorr m L L' x x' →
  (s' b' x').1 = (s b x).1 ∧ VecCorr m L L' (s b x).2 (s' b' x').2

/-- Correspondence of vectors of the given space. -/
def Cfg.Corr (C C' : Cfg V) : Kind → Vec → Vec → Prop
  | .full => VecCorr C.fe.m C.full C'.full
  | .slab => VecCorr C.fe.m C.slab C'.slab
  | .coup => VecCorr C.fe.m C.coup C'.coup
  | .bnd => VecCorr C.fe.m C.bnd C'.bnd
  | .other => fun v v' => v' = v

/-- Corresponding calls: the same, but for what the caller hands over. -/
inductive OpCorr (C C' : Cfg V) (κ : ℕ → Kind) : Op V → Op V → Prop
  | write (k v v') (h : C.Corr C' (κ k) v v') : OpCorr C C' κ (.write k v) (.write k v')
  | first (s s') (h : SolverCorr C.fe.m C.slab C'.slab s s') : OpCorr C C' κ (.setSolverFirst s) (.setSolverFirst s')
  | slab (s s') (h : SolverCorr C.fe.m C.slab C'.slab s s') : OpCorr C C' κ (.setSolverSlab s) (.setSolverSlab s')
  | same (op) (h1 : ∀ k v, op ≠ .write k v) (h2 : ∀ s, op ≠ .setSolverFirst s) (h3 : ∀ s, op ≠ .setSolverSlab s) : OpCorr C C' κ op op

/-- Two new objects; all vectors correspond and the same external calls fail. -/
structure Start (C C' : Cfg V) (κ : ℕ → Kind) (w w' : World V) : Prop where
  fresh : w.Fresh
  fresh' : w'.Fresh
  sched : w'.sched = w.sched
  clock : w'.clock = w.clock
  vecs : ∀ r : Ref, C.Corr C' (r.kind κ) (w.heap r) (w'.heap r)

/-- What is the same for the two objects in the states `w`, `w'`. -/
structure Alike (C C' : Cfg V) (κ : ℕ → Kind) (w w' : World V) : Prop where
  /-- the caller's vectors -/
  user : ∀ k, C.Corr C' (κ k) (w.heap (.user k)) (w'.heap (.user k))
  /-- the right-hand side -/
  rhs : VecCorr C.fe.m C.full C'.full (w.heap .rhs) (w'.heap .rhs)
  /-- what the next call raises or that it returns -/
  outcome : ∀ op op', OpCorr C C' κ op op' → op.WellTyped κ → (runOp C' op' w').1 = (runOp C op w).1
  /-- the matrices returned -/
  matrix : ∀ p, Out (MatCorr C.fe.m C.full C'.full) (getSpacetimeMatrix C p w).1 (getSpacetimeMatrix C' p w').1
  slabMatrix : Out (ORel (MatCorr C.fe.m C.slab C'.slab)) (getSlabMatrix C w).1 (getSlabMatrix C' w').1
  firstMatrix : Out (ORel (MatCorr C.fe.m C.slab C'.slab)) (getSlabMatrixFirst w).1 (getSlabMatrixFirst w').1
  /-- error reports and plots -/
  errors : ∀ u : InVec, u.ref.kind κ = .full → (measuredErrors C' u.ref w').1 = (measuredErrors C u.ref w).1
  plot : ∀ (u : InVec) nSpace nSub (ev : ℕ → V → ℝ) g, u.ref.kind κ = .full →
    (plotTables C' nSpace nSub ev g u.ref w').1 = (plotTables C nSpace nSub ev g u.ref w).1

/-! ### From permutations to correspondence and back -/

theorem vecCorr_iff {L L' : FSpace} {m : Fin 4 → ℕ} (h : L.Ok m) {e : Equiv.Perm ℕ} (hr : ∀ d, L.size ≤ d → e d = d)
    (he : ∀ c i s, i < L.nsub c → s < m c → e (L.dof c i s) = L'.dof c i s) (v v' : Vec) :
    VecCorr m L L' v v' ↔ v' = ren e v := by
  constructor
  · intro k
    funext d
    rcases lt_or_ge (e.symm d) L.size with hd | hd
    · obtain ⟨c, i, s, hi, hs, e1⟩ := h.surj _ hd
      have := k.coeff c i s hi hs
      rw [← he c i s hi hs, e1, e.apply_symm_apply] at this
      exact this
    · have e1 := hr _ hd
      rw [e.apply_symm_apply] at e1
      rw [ren, ← e1]
      exact k.rest d (by rw [e1]; exact hd)
  · rintro rfl
    exact ⟨fun c i s hi hs => by rw [← he c i s hi hs, ren_apply], fun d hd => by
      have := ren_apply e v d
      rwa [hr d hd] at this⟩

theorem matCorr_renum {L L' : FSpace} {m : Fin 4 → ℕ} {e : Equiv.Perm ℕ}
    (he : ∀ c i s, i < L.nsub c → s < m c → e (L.dof c i s) = L'.dof c i s) (A : Mat) : MatCorr m L L' A (A.renum e) where
  size := rfl
  entry c i s c₁ i₁ s₁ hi hs hi₁ hs₁ := by
    rw [← he c i s hi hs, ← he c₁ i₁ s₁ hi₁ hs₁]
    simp [Mat.renum]

theorem solverCorr_renum {L L' : FSpace} {m : Fin 4 → ℕ} (h : L.Ok m) {e : Equiv.Perm ℕ} (hr : ∀ d, L.size ≤ d → e d = d)
    (he : ∀ c i s, i < L.nsub c → s < m c → e (L.dof c i s) = L'.dof c i s) {s s' : Solver} (k : SolverCorr m L L' s s') :
    s' = s.renum e := by
  funext b x
  have hb : VecCorr m L L' (ren e.symm b) b := (vecCorr_iff h hr he _ _).2 (ren_symm e.symm b).symm
  have hx : VecCorr m L L' (ren e.symm x) x := (vecCorr_iff h hr he _ _).2 (ren_symm e.symm x).symm
  obtain ⟨k1, k2⟩ := k _ _ _ _ hb hx
  exact Prod.ext k1 ((vecCorr_iff h hr he _ _).1 k2)

/-- C100.  After any sequence of calls. -/
theorem C100_numbering {C C' : Cfg V} (hC : C.Ok) (hC' : C'.Ok) (hsame : C.SameBut C') {κ : ℕ → Kind} {ops ops' : List (Op V)}
    (hops : List.Forall₂ (OpCorr C C' κ) ops ops') (hty : ∀ op ∈ ops, op.WellTyped κ) {w w' : World V} (hw : Start C C' κ w w') :
    Alike C C' κ (runOps C ops w) (runOps C' ops' w') := by
  have hD : C'.D = C.D := by rw [hsame]
  have hfe : C'.fe = C.fe := by rw [hsame]
  obtain ⟨sf, f, f1, f2, f3⟩ := exists_perm (L' := C'.full) hC.full (hfe ▸ hC'.full) (by rw [hC.fullN, hC'.fullN, hD])
  obtain ⟨ss, s, s1, s2, s3⟩ := exists_perm (L' := C'.slab) hC.slab (hfe ▸ hC'.slab) (by rw [hC.slabN, hC'.slabN, hD])
  obtain ⟨sc, c, c1, c2, c3⟩ := exists_perm (L' := C'.coup) hC.coup (hfe ▸ hC'.coup) (by rw [hC.coupN, hC'.coupN])
  obtain ⟨sb, b, b1, b2, b3⟩ := exists_perm (L' := C'.bnd) hC.bnd (hfe ▸ hC'.bnd) (by rw [hC.bndN, hC'.bndN])
  set ρ : Renum := ⟨f, s, c, b⟩
  have hρ : ρ.Fits C := ⟨f1, s1, c1, b1⟩
  have hC1 := hC.renum hρ
  have g1 : (C.renum ρ).full.Same C'.full := .of_perm hC.full (hfe ▸ hC'.full) sf (by rw [hC.fullN, hC'.fullN, hD]) f3
  have g2 : (C.renum ρ).slab.Same C'.slab := .of_perm hC.slab (hfe ▸ hC'.slab) ss (by rw [hC.slabN, hC'.slabN, hD]) s3
  have g3 : (C.renum ρ).coup.Same C'.coup := .of_perm hC.coup (hfe ▸ hC'.coup) sc (by rw [hC.coupN, hC'.coupN]) c3
  have g4 : (C.renum ρ).bnd.Same C'.bnd := .of_perm hC.bnd (hfe ▸ hC'.bnd) sb (by rw [hC.bndN, hC'.bndN]) b3
  have eC : C' = (C.renum ρ).spaces C'.full C'.slab C'.coup C'.bnd := hsame
  have run : ∀ op, runOp C' op = runOp (C.renum ρ) op := fun op => by rw [eC]; exact congr_op hC1 g1 g2 g3 g4 op
  have corr : ∀ k v v', C.Corr C' k v v' ↔ v' = ren (ρ.perm k) v := by
    intro k v v'
    cases k with
    | full => exact vecCorr_iff hC.full f2 f3 v v'
    | slab => exact vecCorr_iff hC.slab s2 s3 v v'
    | coup => exact vecCorr_iff hC.coup c2 c3 v v'
    | bnd => exact vecCorr_iff hC.bnd b2 b3 v v'
    | other => exact Iff.rfl
  have opc : ∀ op op', OpCorr C C' κ op op' → op' = op.renum ρ κ := by
    intro op op' h
    cases h with
    | write k v v' h => rw [(corr _ _ _).1 h]; rfl
    | first s s' h => rw [solverCorr_renum hC.slab s2 s3 h]; rfl
    | slab s s' h => rw [solverCorr_renum hC.slab s2 s3 h]; rfl
    | same op h1 h2 h3 =>
      cases op with
      | write k v => exact absurd rfl (h1 k v)
      | setSolverFirst s => exact absurd rfl (h2 s)
      | setSolverSlab s => exact absurd rfl (h3 s)
      | _ => rfl
  have e' : ops' = ops.map (·.renum ρ κ) := by
    clear hty
    induction hops with
    | nil => rfl
    | cons h _ ih => rw [opc _ _ h, ih]; rfl
  have r0 : RR C ρ κ w w' := by
    refine ⟨by rw [hw.fresh', hw.fresh]; rfl, fun r => ?_, hw.sched, hw.clock, ?_⟩
    · have := (corr _ _ _).1 (hw.vecs r)
      unfold VRel
      split
      · rename_i hr
        have hk : r.kind κ = .other := by cases r <;> first | rfl | exact absurd hr (by simp [Ref.isNode])
        rw [hk] at this
        intro s _
        rw [this]; rfl
      · exact this
    · rw [hw.fresh]
      exact ⟨fun _ h => by simp at h, fun _ h => by simp at h, fun _ h => by simp at h, fun _ h => by simp at h⟩
  have er : runOps C' ops' w' = runOps (C.renum ρ) ops' w' := by
    unfold runOps
    congr 1
    funext w op
    rw [run]
  have r := RR.ops hC hρ hty r0
  rw [← e', ← er] at r
  have hv : ∀ q : Ref, q.isNode = false → C.Corr C' (q.kind κ) ((runOps C ops w).heap q) ((runOps C' ops' w').heap q) := fun q hq =>
    (corr _ _ _).2 ((vrel hq).1 (r.heap q))
  refine ⟨fun k => hv (.user k) rfl, hv .rhs rfl, fun op op' h ht => ?_, fun p => ?_, ?_, ?_, fun u hu => ?_, fun u nSpace nSub ev g hu => ?_⟩
  · rw [opc _ _ h, run]
    have := (two_op hC hρ op ht _ _ r).1
    exact this.eq
  · have := (Two.getMatrix hC hρ p _ _ r).1
    have e : getSpacetimeMatrix C' p = getSpacetimeMatrix (C.renum ρ) p := by rw [eC]; exact congr_getMatrix hC1 g1 g2 g3 g4 p
    rw [e]
    exact this.mono fun A _ h => h ▸ matCorr_renum f3 A
  · have := (Two.getSlabMatrix hC hρ _ _ r).1
    have e : getSlabMatrix C' = getSlabMatrix (C.renum ρ) := by rw [eC]; exact congr_getSlabMatrix hC1 g1 g2 g3 g4
    rw [e]
    refine this.mono fun A _ h => h ▸ ?_
    cases A
    · trivial
    · exact matCorr_renum s3 _
  · have h : (runOps C' ops' w').obj.firstMat = (runOps C ops w).obj.firstMat.map (·.renum ρ.slab) := by rw [r.obj]; rfl
    change ORel _ (runOps C ops w).obj.firstMat (runOps C' ops' w').obj.firstMat
    rw [h]
    cases (runOps C ops w).obj.firstMat
    · trivial
    · exact matCorr_renum s3 _
  · have := (Two.errors hC u.kindNode hu _ _ r).1
    have e : measuredErrors C' u.ref = measuredErrors (C.renum ρ) u.ref := by rw [eC]; exact congr_errors u.ref
    rw [e]
    exact this.eq
  · have := (Two.plotTables nSpace nSub ev g hC u.kindNode hu _ _ r).1
    have e : plotTables C' nSpace nSub ev g u.ref = plotTables (C.renum ρ) nSpace nSub ev g u.ref := by
      rw [eC]; exact congr_plotTables nSpace nSub ev g _ _ _ _ u.ref
    rw [e]
    exact this.eq

/-- Corresponding vectors are coefficient vectors of the same discrete function. -/
theorem C100_same_function {fe : FE V} {L L' : FSpace} (hn : L'.nsub = L.nsub) {v v' : Vec} (h : VecCorr fe.m L L' v v') :
    L'.field fe v' = L.field fe v := by
  funext c i
  simp only [FSpace.field, hn]
  split
  · rename_i hi
    exact sum_congr rfl fun s hs => by rw [h.coeff c i.toNat s (by omega) (mem_range.1 hs)]
  · rfl

namespace Example
open Polynomial

/-- The example numbered differently: two dofs of every space are exchanged. -/
def swapped : Renum := ⟨.swap 0 1, .swap 0 1, .swap 0 1, .swap 0 1⟩

theorem swap_below {n : ℕ} (h : 2 ≤ n) : Below (.swap 0 1) n := by
  intro d
  rcases eq_or_ne d 0 with rfl | h0
  · simp; omega
  rcases eq_or_ne d 1 with rfl | h1
  · simp; omega
  · rw [Equiv.swap_apply_of_ne_of_ne h0 h1]

theorem swapped_fits : swapped.Fits (cfg false false) := ⟨swap_below (by decide), swap_below (by decide), swap_below (by decide), swap_below (by decide)⟩

theorem swapped_same : (cfg false false).SameBut ((cfg false false).renum swapped) := rfl

/-- The numbering really is another one. -/
example : ((cfg false false).renum swapped).full.dof 0 0 0 ≠ (cfg false false).full.dof 0 0 0 := by
  rw [show ((cfg false false).renum swapped).full.dof 0 0 0 = _ from
    FSpace.renum_dof (cfg_ok false false).full _ (c := 0) (i := 0) (s := 0) (by decide) (by decide)]
  decide

/-- C100 applied: set up, product with the matrix, preconditioner, error report, for zero vectors. -/
example : Alike (cfg false false) ((cfg false false).renum swapped) (fun _ => .full)
    (runOps (cfg false false) [.setupFE, .prepare, .getMatrix false, .getRhs, .apply .rhs 1, .pre (.user 1) 2, .errors (.user 2)] (freshWorld 0))
    (runOps ((cfg false false).renum swapped) [.setupFE, .prepare, .getMatrix false, .getRhs, .apply .rhs 1, .pre (.user 1) 2, .errors (.user 2)]
      (freshWorld 0)) := by
  refine C100_numbering (cfg_ok _ _) ((cfg_ok _ _).renum swapped_fits) swapped_same ?_ ?_ ⟨rfl, rfl, rfl, rfl, fun r => ?_⟩
  · refine .cons ?_ (.cons ?_ (.cons ?_ (.cons ?_ (.cons ?_ (.cons ?_ (.cons ?_ .nil)))))) <;> exact .same _ (by simp) (by simp) (by simp)
  · simp [Op.WellTyped, InVec.ref, Ref.kind]
  · cases r.kind _ <;> first | exact ⟨fun _ _ _ _ _ => rfl, fun _ _ => rfl⟩ | rfl

end Example
end Dxss
