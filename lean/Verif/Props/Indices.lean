import Verif.Lemmas.Forms
import Verif.Model.Assembly
import Mathlib.Tactic.Positivity

/-!
# Property C11: all component indices used by the form builders are valid
-/

namespace Dxss
open Finset
variable {V : Type}

/-! ## C11 -/

def Atom.Within (m : Fin 4 → ℕ) (a : Atom) : Prop := 0 ≤ a.idx ∧ a.idx < m a.comp
def OpWithin (m : Fin 4 → ℕ) (o : Operand) : Prop := ∀ a ∈ o, a.Within m
/-- Every index occurring in the form is a valid component index. -/
def FormWithin (m : Fin 4 → ℕ) (F : List Term) : Prop :=
  ∀ t ∈ F, OpWithin m t.trial ∧ OpWithin m t.test
def LinWithin (m : Fin 4 → ℕ) (F : List (LTerm V)) : Prop := ∀ t ∈ F, OpWithin m t.test

theorem FormWithin.append {m : Fin 4 → ℕ} {F G : List Term} (hF : FormWithin m F)
    (hG : FormWithin m G) : FormWithin m (F ++ G) := by
  intro t ht; rcases List.mem_append.mp ht with h | h
  exacts [hF t h, hG t h]
theorem FormWithin.cons {m : Fin 4 → ℕ} {t : Term} {F : List Term}
    (ht : OpWithin m t.trial ∧ OpWithin m t.test) (hF : FormWithin m F) : FormWithin m (t :: F) := by
  intro s hs; rcases List.mem_cons.mp hs with rfl | h
  exacts [ht, hF s h]
theorem FormWithin.nil {m : Fin 4 → ℕ} : FormWithin m [] := by intro t ht; simp at ht
theorem FormWithin.ite {m : Fin 4 → ℕ} {p : Prop} [Decidable p] {F G : List Term}
    (hF : p → FormWithin m F) (hG : ¬p → FormWithin m G) : FormWithin m (if p then F else G) := by
  split
  exacts [hF ‹_›, hG ‹_›]
theorem FormWithin.loop2 {m : Fin 4 → ℕ} {n n' : ℕ} {body : ℕ → ℕ → List Term}
    (h : ∀ j < n, ∀ k < n', FormWithin m (body j k)) : FormWithin m (loop2 n n' body) := by
  intro t ht
  simp only [Dxss.loop2, List.mem_flatMap, List.mem_range] at ht
  obtain ⟨j, hj, k, hk, h'⟩ := ht
  exact h j hj k hk t h'
theorem FormWithin.slabLoop {m : Fin 4 → ℕ} {q qstar N : ℕ} {body : Counters → ℕ → List Term}
    (h : ∀ n < N, FormWithin m (body (ctr q qstar n) n)) :
    FormWithin m (Dxss.slabLoop q qstar N body) := by
  intro t ht
  rw [slabLoop_eq] at ht
  simp only [List.mem_flatMap, List.mem_range] at ht
  obtain ⟨n, hn, h'⟩ := ht
  exact h n hn t h'
theorem opWithin_at {m : Fin 4 → ℕ} {c : Fin 4} {i : ℤ} :
    OpWithin m (at_ c i) ↔ 0 ≤ i ∧ i < m c := by
  simp [OpWithin, at_, Atom.Within]
theorem opWithin_diff {m : Fin 4 → ℕ} {c : Fin 4} {i i' : ℤ} :
    OpWithin m (diff_ c i i') ↔ (0 ≤ i ∧ i < m c) ∧ (0 ≤ i' ∧ i' < m c) := by
  simp [OpWithin, diff_, Atom.Within]

theorem idx_bound {q N n j : ℕ} (hn : n < N) (hj : j < q + 1) :
    (0:ℤ) ≤ n * (q + 1) + j ∧ (n * (q + 1) + j : ℤ) < ((q + 1) * N : ℕ) := by
  constructor
  · positivity
  · have : n * (q + 1) + j < (q + 1) * N := by nlinarith
    exact_mod_cast this

theorem top_bound {q N n : ℕ} (hn : n < N) (h0 : 0 < n) :
    (0:ℤ) ≤ n * (q + 1) - 1 ∧ (n * (q + 1) - 1 : ℤ) < ((q + 1) * N : ℕ) := by
  have h1 : 1 ≤ n * (q + 1) := Nat.mul_pos h0 (Nat.succ_pos q)
  have h2 : n * (q + 1) < (q + 1) * N := by nlinarith
  constructor
  · have : (1:ℤ) ≤ n * (q + 1) := by exact_mod_cast h1
    linarith
  · have : (n * (q + 1) : ℤ) < ((q + 1) * N : ℕ) := by exact_mod_cast h2
    linarith

theorem C11_spacetime_indices (D : Disc V) (hN : 1 ≤ D.N) (precond : Bool) :
    FormWithin (fullSizes D.q D.qstar D.N) (D.stForm precond) := by
  have pos : ∀ p : ℕ, (0:ℤ) < ((p + 1) * D.N : ℕ) := fun p => by
    have : 0 < (p + 1) * D.N := by positivity
    exact_mod_cast this
  have bot : ∀ (p : ℕ) {n : ℕ}, n < D.N →
      (0:ℤ) ≤ n * (p + 1) ∧ (n * (p + 1) : ℤ) < ((p + 1) * D.N : ℕ) := fun p n hn => by
    simpa using idx_bound (q := p) (j := 0) hn (Nat.succ_pos p)
  refine FormWithin.cons ⟨opWithin_at.mpr ⟨le_rfl, pos _⟩, opWithin_at.mpr ⟨le_rfl, pos _⟩⟩
    (FormWithin.slabLoop fun n hn => ?_)
  have i1 : (ctr D.q D.qstar n).couplingQ + 1 = n * (D.q + 1) := by simp [ctr]
  have i2 : (ctr D.q D.qstar n).couplingQs + 1 = n * (D.qstar + 1) := by simp [ctr]
  have i3 : (ctr D.q D.qstar n).couplingQ = n * (D.q + 1) - 1 := rfl
  unfold Disc.stBody
  refine ((((((((FormWithin.append ?_ ?_).append ?_).append ?_).append ?_).append ?_).append
    ?_).append ?_).append ?_)
  · refine FormWithin.loop2 fun j hj k hk => ?_
    have a := idx_bound (q := D.q) hn hj; have b := idx_bound (q := D.qstar) hn hk
    refine FormWithin.append ?_ (FormWithin.ite (fun _ => ?_) fun _ => FormWithin.nil) <;>
    · intro t ht; simp at ht; aesop (add simp [opWithin_at, ctr, fullSizes])
  · refine FormWithin.loop2 fun j hj k hk => ?_
    have a := idx_bound (q := D.q) hn hj; have b := idx_bound (q := D.q) hn hk
    intro t ht; simp at ht; aesop (add simp [opWithin_at, ctr, fullSizes])
  · refine FormWithin.loop2 fun j hj k hk => ?_
    have a := idx_bound (q := D.q) hn hj; have b := idx_bound (q := D.qstar) hn hk
    refine FormWithin.append ?_ (FormWithin.ite (fun _ => ?_) fun _ => FormWithin.nil) <;>
    · intro t ht; simp at ht; aesop (add simp [opWithin_at, ctr, fullSizes])
  · refine FormWithin.loop2 fun j hj k hk => ?_
    have a := idx_bound (q := D.qstar) hn hj; have b := idx_bound (q := D.qstar) hn hk
    intro t ht; simp at ht; aesop (add simp [opWithin_at, ctr, fullSizes])
  · refine FormWithin.ite (fun _ => ?_) fun _ => FormWithin.nil
    rw [i2]; have b := bot D.qstar hn
    intro t ht; simp at ht; aesop (add simp [opWithin_at, fullSizes])
  · refine FormWithin.loop2 fun j hj k hk => ?_
    have a := idx_bound (q := D.q) hn hj; have b := idx_bound (q := D.q) hn hk
    intro t ht; simp at ht; aesop (add simp [opWithin_at, ctr, fullSizes])
  · refine FormWithin.ite (fun _ => ?_) fun _ => FormWithin.nil
    have b := pos D.q
    intro t ht; simp at ht; aesop (add simp [opWithin_at, fullSizes])
  · refine FormWithin.ite (fun hh => ?_) fun _ => FormWithin.nil
    have h0 : 0 < n := by simp at hh; exact hh.2
    rw [i1, i2, i3]
    have b := bot D.qstar hn; have a := bot D.q hn; have d := top_bound (q := D.q) hn h0
    intro t ht; simp at ht; aesop (add simp [opWithin_at, opWithin_diff, fullSizes])
  · refine FormWithin.ite (fun h0 => ?_) fun _ => FormWithin.nil
    rw [i1, i3]
    have a := bot D.q hn; have d := top_bound (q := D.q) hn h0
    refine FormWithin.ite (fun _ => ?_) fun _ => ?_ <;>
    · intro t ht; simp at ht; aesop (add simp [opWithin_at, opWithin_diff, fullSizes])

theorem C11_slab_indices (D : Disc V) (withJumps : Bool) :
    FormWithin (slabSizes D.q D.qstar) (D.slabForm withJumps) := by
  have pos : ∀ p : ℕ, (0:ℤ) < (p : ℤ) + 1 := fun p => by positivity
  refine FormWithin.cons ⟨opWithin_at.mpr ⟨le_rfl, by simp [slabSizes]⟩,
    opWithin_at.mpr ⟨le_rfl, by simp [slabSizes]⟩⟩
    ((((((FormWithin.append ?_ ?_).append ?_).append ?_).append ?_).append ?_).append ?_)
  · refine FormWithin.loop2 fun j hj k hk => ?_
    refine FormWithin.append ?_ (FormWithin.ite (fun _ => ?_) fun _ => FormWithin.nil) <;>
    · intro t ht; simp at ht
      rcases ht with rfl | rfl | rfl | rfl <;> simp [opWithin_at, slabSizes] <;> omega
  · refine FormWithin.loop2 fun j hj k hk => ?_
    intro t ht; simp at ht; subst ht; simp [opWithin_at, slabSizes]; omega
  · refine FormWithin.loop2 fun j hj k hk => ?_
    refine FormWithin.append ?_ (FormWithin.ite (fun _ => ?_) fun _ => FormWithin.nil) <;>
    · intro t ht; simp at ht
      rcases ht with rfl | rfl | rfl | rfl <;> simp [opWithin_at, slabSizes] <;> omega
  · refine FormWithin.loop2 fun j hj k hk => ?_
    intro t ht; simp at ht
    rcases ht with rfl | rfl | rfl | rfl <;> simp [opWithin_at, slabSizes] <;> omega
  · refine FormWithin.ite (fun _ => ?_) fun _ => FormWithin.nil
    intro t ht; simp at ht
    rcases ht with rfl | rfl <;> simp [opWithin_at, slabSizes]
  · refine FormWithin.loop2 fun j hj k hk => ?_
    intro t ht; simp at ht
    rcases ht with rfl | rfl | rfl | rfl | rfl | rfl | rfl | rfl | rfl | rfl <;>
      simp [opWithin_at, slabSizes] <;> omega
  · refine FormWithin.ite (fun _ => FormWithin.append ?_
      (FormWithin.ite (fun _ => ?_) fun _ => FormWithin.nil)) fun _ => FormWithin.nil
    · intro t ht; simp at ht
      rcases ht with rfl | rfl | rfl <;> simp [opWithin_at, slabSizes]
    · intro t ht; simp at ht
      rcases ht with rfl | rfl <;> simp [opWithin_at, slabSizes]

theorem C11_coupling_indices (D : Disc V) : FormWithin couplingSizes D.couplingForm := by
  intro t ht; simp [Disc.couplingForm] at ht
  rcases ht with rfl | rfl | rfl | rfl <;> simp [opWithin_at, opWithin_diff, couplingSizes]

theorem C11_interface_mass_indices (D : Disc V) : FormWithin bndSizes D.bndForm := by
  intro t ht; simp [Disc.bndForm] at ht
  rcases ht with rfl | rfl | rfl <;> simp [opWithin_at, bndSizes]

theorem C11_rhs_indices [AddCommGroup V] [Module ℝ V] (S : Space V) (D : Disc V) (hN : 1 ≤ D.N)
    (pts ws : List ℝ) (u10 u20 : V) :
    LinWithin (fullSizes D.q D.qstar D.N) (D.rhsForm S pts ws u10 u20) := by
  have pos : ∀ p : ℕ, (0:ℤ) < ((p + 1) * D.N : ℕ) := fun p => by
    have : 0 < (p + 1) * D.N := by positivity
    exact_mod_cast this
  intro t ht
  rw [Disc.rhsForm, slabLoop_eq] at ht
  rcases List.mem_cons.mp ht with rfl | ht
  · exact opWithin_at.mpr ⟨le_rfl, pos _⟩
  simp only [List.mem_flatMap, List.mem_range] at ht
  obtain ⟨n, hn, ht⟩ := ht
  rcases List.mem_append.mp ht with ht | ht
  · obtain ⟨p, -, rfl⟩ := List.mem_map.mp ht
    intro a ha
    obtain ⟨k, hk, rfl⟩ := List.mem_map.mp ha
    exact idx_bound hn (List.mem_range.mp hk)
  · split at ht
    · simp at ht
      rcases ht with rfl | rfl | rfl <;> exact opWithin_at.mpr ⟨le_rfl, pos _⟩
    · simp at ht

theorem C11_preload_indices [AddCommGroup V] [Module ℝ V] (S : Space V) (D : Disc V) (n : ℕ)
    (u10 u20 : V) : LinWithin (slabSizes D.q D.qstar) (D.preLoad S n u10 u20) := by
  intro t ht
  rcases List.mem_cons.mp ht with rfl | ht
  · simp [opWithin_at, slabSizes]
  split at ht
  · rcases List.mem_append.mp ht with ht | ht
    · simp at ht; rcases ht with rfl | rfl | rfl <;> simp [opWithin_at, slabSizes]
    · split at ht
      · simp at ht; rcases ht with rfl | rfl <;> simp [opWithin_at, slabSizes]
      · simp at ht
  · simp at ht

-- the bounds are attained: with N = 2, q = 1 the last component index 3 = (q+1)*N - 1 occurs
example (D : Disc V) (h : D.q = 1) (hN : D.N = 2) :
    ∃ t ∈ D.stForm false, ∃ a ∈ t.trial, a.comp = 0 ∧ a.idx = 3 := by
  refine ⟨⟨D.gData * D.dt * D.E.M_q_q 1 1, .omega, at_ 0 3, at_ 0 3⟩, ?_, ⟨1, 0, 3⟩, by simp [at_], rfl, rfl⟩
  rw [Disc.stForm, slabLoop_eq]
  refine List.mem_cons_of_mem _ (List.mem_flatMap.mpr ⟨1, by simp [hN], ?_⟩)
  simp only [Disc.stBody, List.mem_append]
  refine Or.inl (Or.inl (Or.inl (Or.inl (Or.inl (Or.inl (Or.inl (Or.inr ?_)))))))
  simp only [Disc.stData, loop2, List.mem_flatMap, List.mem_range, List.mem_singleton]
  exact ⟨1, by omega, 1, by omega, by simp [ctr, h]⟩

end Dxss
