import Verif.Model.Errors
import Verif.Model.History
import Verif.Lemmas.MatrixFree
import Verif.Lemmas.Time

/-! # Running the error measurement -/

namespace Dxss
set_option linter.unusedSectionVars false
variable {V : Type} [AddCommGroup V] [Module ℝ V] {C : Cfg V} {α β γ : Type}

/-- Outcome `x` of a computation started in `w`: either it returns and `Q` holds, or some external
call made from now on fails. -/
def Run (w : World V) (x : Py β × World V) (Q : β → World V → Prop) : Prop :=
  match x with
  | (.ok a, w') => Q a w' ∧ w'.sched = w.sched ∧ w.clock ≤ w'.clock
  | (.error e, _) => e = .runtimeError ∧ ∃ k, w.clock ≤ k ∧ w.sched k = true

theorem Run.of_ok {w w' : World V} {x : Py β × World V} {a : β} {Q : β → World V → Prop} (h : x = (.ok a, w'))
    (hs : w'.sched = w.sched) (hc : w.clock ≤ w'.clock) (hQ : Q a w') : Run w x Q := by
  rw [h]; exact ⟨hQ, hs, hc⟩

theorem Run.bind {w : World V} {x : WM V α} {f : α → WM V β} {Q : α → World V → Prop} {Q' : β → World V → Prop}
    (h : Run w (x w) Q) (h' : ∀ a w', Q a w' → Run w' (f a w') Q') : Run w ((x >>= f) w) Q' := by
  rw [M.bind_run]
  rcases hx : x w with ⟨e | a, w'⟩
  · rw [hx] at h; exact h
  · rw [hx] at h
    obtain ⟨h1, h2, h3⟩ := h
    have h4 := h' a w' h1
    change Run w (f a w') Q'
    rcases hf : f a w' with ⟨e | b, w''⟩
    · rw [hf] at h4
      obtain ⟨h5, k, h6, h7⟩ := h4
      exact ⟨h5, k, h3.trans h6, h2 ▸ h7⟩
    · rw [hf] at h4
      exact ⟨h4.1, h4.2.1.trans h2, h3.trans h4.2.2⟩

theorem Run.rebase {w w₁ : World V} {x : Py β × World V} {Q : β → World V → Prop} (hs : w₁.sched = w.sched)
    (hc : w₁.clock = w.clock) (h : Run w₁ x Q) : Run w x Q := by
  rcases x with ⟨e | a, w'⟩
  · exact ⟨h.1, by simpa only [hs, hc] using h.2⟩
  · exact ⟨h.1, h.2.1.trans hs, hc ▸ h.2.2⟩

theorem Run.mono {w : World V} {x : Py β × World V} {Q Q' : β → World V → Prop} (h : Run w x Q)
    (h' : ∀ a w', Q a w' → Q' a w') : Run w x Q' := by
  rcases x with ⟨e | a, w'⟩
  · exact h
  · exact ⟨h' _ _ h.1, h.2⟩

theorem Run.ext (w : World V) : Run w (ext w) fun _ w' => w'.obj = w.obj ∧ w'.heap = w.heap := by
  unfold Dxss.ext
  by_cases h : w.sched w.clock = true
  · simp only [h, if_true]; exact ⟨rfl, w.clock, le_rfl, h⟩
  · simp only [h]; exact ⟨⟨rfl, rfl⟩, rfl, Nat.le_succ _⟩

theorem Run.forAcc {body : β → α → WM V β} (P : List α → β → World V → Prop)
    (h : ∀ a l acc w, P (a :: l) acc w → Run w (body acc a w) (P l)) :
    ∀ l acc w, P l acc w → Run w (M.forAcc l acc body w) (P []) := by
  intro l
  induction l with
  | nil => intro acc w hp; exact ⟨hp, rfl, le_rfl⟩
  | cons a l ih => intro acc w hp; exact Run.bind (h a l acc w hp) fun acc' w' hp' => ih acc' w' hp'

/-- Value part: without failures the computation returns. -/
theorem Run.noFail {w : World V} {x : Py β × World V} {Q : β → World V → Prop} (h : Run w x Q) (hf : w.NoFail) :
    ∃ a w', x = (.ok a, w') ∧ Q a w' := by
  rcases x with ⟨e | a, w'⟩
  · obtain ⟨-, k, h1, h2⟩ := h; rw [hf k h1] at h2; exact absurd h2 (by simp)
  · exact ⟨a, w', rfl, h.1⟩

/-! ### The loops -/

/-- A loop whose body calls out and then updates the accumulator, for the elements selected by `p`. -/
theorem forAcc_calls (p : α → Prop) [DecidablePred p] (f : β → α → β) (l : List α) (acc : β) (w : World V) :
    Run w (M.forAcc l acc (fun acc a => if p a then do Dxss.ext; return f acc a else return acc) w)
      fun r w' => r = (l.filter (p ·)).foldl f acc ∧ w'.obj = w.obj ∧ w'.heap = w.heap := by
  refine (Run.forAcc (fun l' acc' w' => (l'.filter (p ·)).foldl f acc' = (l.filter (p ·)).foldl f acc ∧
    w'.obj = w.obj ∧ w'.heap = w.heap) ?_ l acc w ⟨rfl, rfl, rfl⟩).mono fun a w' h => ⟨h.1, h.2⟩
  rintro a l' acc' w' ⟨h1, h2, h3⟩
  by_cases hp : p a
  · simp only [if_pos hp]
    refine Run.bind (Run.ext w') fun _ w'' h => ⟨⟨?_, h.1.trans h2, h.2.trans h3⟩, rfl, le_rfl⟩
    rw [← h1]; simp [hp]
  · simp only [if_neg hp]
    refine ⟨⟨?_, h2, h3⟩, rfl, le_rfl⟩
    rw [← h1]; simp [hp]

/-! ### Loading the coefficients -/

/-- Coefficient function number `i` of the displacement stored in `v`. -/
noncomputable def Cfg.u1Node (C : Cfg V) (v : Vec) (i : ℕ) : V := nodeAt C.fe v (C.full.collapse 0 i)

theorem copyTop_put (dst src : Ref) (idx : List ℕ) (w : World V) : copyTop dst src idx w
    = (.ok (), w.put dst fun s => w.heap src (idx.getD s 0)) := by
  simp [copyTop, M.bind_run, getVec, setVec, M.modify, World.put]

theorem u1_lookup {i : ℕ} (hi : i < (C.D.q + 1) * C.D.N) :
    pyIdx ((mkDofmaps C).full 0) (i : ℤ) = .ok (C.full.collapse 0 i) := full_lookup C.D C.full (j := 0) hi

theorem errSlab_run (w : World V) {n : ℕ} (hn : n < C.D.N) :
    ∃ w', M.forList (List.range (C.D.q + 1)) (fun (ell : ℕ) => do
        let i ← M.lift (pyIdx ((mkDofmaps C).full 0) (((n * (C.D.q + 1) : ℕ) : ℤ) + ell))
        copyTop (.u1Slab ell) .uh i) w = (.ok (), w') ∧
      (∀ j ≤ C.D.q, nodeFun C.fe (w'.heap (.u1Slab j)) = C.u1Node (w.heap .uh) (n * (C.D.q + 1) + j)) ∧
      w'.obj = w.obj ∧ w'.sched = w.sched ∧ w'.clock = w.clock ∧ w'.heap .uh = w.heap .uh ∧
      w'.heap .u1Minus = w.heap .u1Minus := by
  have hle : n * (C.D.q + 1) + (C.D.q + 1) ≤ (C.D.q + 1) * C.D.N := by
    calc _ = (C.D.q + 1) * (n + 1) := by ring
      _ ≤ _ := Nat.mul_le_mul_left _ hn
  obtain ⟨w₂, r2, ⟨l', e1, e2⟩, h2⟩ := M.forList_inv (σ := World V)
    (body := fun (ell : ℕ) => do
      let i ← M.lift (pyIdx ((mkDofmaps C).full 0) (((n * (C.D.q + 1) : ℕ) : ℤ) + ell))
      copyTop (.u1Slab ell) .uh i)
    (fun l w' => (∃ l', List.range (C.D.q + 1) = l' ++ l ∧ ∀ j ∈ l',
        nodeFun C.fe (w'.heap (.u1Slab j)) = C.u1Node (w.heap .uh) (n * (C.D.q + 1) + j)) ∧
      w'.obj = w.obj ∧ w'.sched = w.sched ∧ w'.clock = w.clock ∧ w'.heap .uh = w.heap .uh ∧
      w'.heap .u1Minus = w.heap .u1Minus)
    (by
      rintro ell l w' ⟨⟨l', e1, e2⟩, h3, h4, h5, h6, h7⟩
      have hmem : ell ∈ List.range (C.D.q + 1) := by rw [e1]; simp
      have hlt : ell < C.D.q + 1 := List.mem_range.1 hmem
      refine ⟨w'.put (.u1Slab ell) fun s => w'.heap .uh
          ((C.full.collapse 0 (n * (C.D.q + 1) + ell)).getD s 0), ?_, ⟨l' ++ [ell], by simp [e1], ?_⟩, h3, h4, h5, ?_, ?_⟩
      · have e : (((n * (C.D.q + 1) : ℕ) : ℤ) + ell) = ((n * (C.D.q + 1) + ell : ℕ) : ℤ) := by push_cast; ring
        have hl := u1_lookup (C := C) (i := n * (C.D.q + 1) + ell) (by omega)
        rw [e, M.bind_ok (by rw [M.lift_run, hl]), copyTop_put]
      · intro j hj
        by_cases hje : j = ell
        · subst hje; simp [World.put, Cfg.u1Node, nodeAt, h6]
        · simp only [List.mem_append, List.mem_singleton, hje, or_false] at hj
          simpa [World.put, hje] using e2 j hj
      · simp [World.put, h6]
      · simp [World.put, h7])
    (List.range (C.D.q + 1)) w ⟨⟨[], rfl, by simp⟩, rfl, rfl, rfl, rfl, rfl⟩
  refine ⟨w₂, r2, fun j hj => e2 j ?_, h2⟩
  rw [List.append_nil] at e1
  rw [← e1]; exact List.mem_range.2 (by omega)

theorem errLoad_run {w : World V} (hd : w.obj.dofmaps = some (mkDofmaps C)) {n : ℕ} (hn : n < C.D.N) :
    ∃ w', errLoad C n ((n * (C.D.q + 1) : ℕ) : ℤ) w = (.ok (), w') ∧ w'.obj = w.obj ∧ w'.sched = w.sched ∧
      w'.clock = w.clock ∧ w'.heap .uh = w.heap .uh ∧
      (∀ j ≤ C.D.q, nodeFun C.fe (w'.heap (.u1Slab j)) = C.u1Node (w.heap .uh) (n * (C.D.q + 1) + j)) ∧
      (0 < n → nodeFun C.fe (w'.heap .u1Minus) = C.u1Node (w.heap .uh) (n * (C.D.q + 1) - 1)) := by
  by_cases h0 : 0 < n
  · have hp : 0 < n * (C.D.q + 1) := Nat.mul_pos h0 (Nat.succ_pos _)
    have hle : n * (C.D.q + 1) < (C.D.q + 1) * C.D.N := by
      rw [mul_comm]; exact Nat.mul_lt_mul_of_pos_left hn (Nat.succ_pos _)
    have e : (((n * (C.D.q + 1) : ℕ) : ℤ) - 1) = ((n * (C.D.q + 1) - 1 : ℕ) : ℤ) := by omega
    obtain ⟨w', r, h1, h2, h3, h4, h5, h6⟩ := errSlab_run (C := C) (w.put .u1Minus
      fun s => w.heap .uh ((C.full.collapse 0 (n * (C.D.q + 1) - 1)).getD s 0)) hn
    refine ⟨w', ?_, h2, h3, h4, by rw [h5]; simp [World.put], fun j hj => (h1 j hj).trans (by simp [World.put]),
      fun _ => by rw [h6]; simp [World.put, Cfg.u1Node, nodeAt]⟩
    unfold errLoad
    rw [M.bind_ok (M.attr_some (by exact hd)), if_pos h0, e]
    have hl := u1_lookup (C := C) (i := n * (C.D.q + 1) - 1) (by omega)
    rw [M.bind_ok (by rw [M.lift_run, hl]), M.bind_ok (copyTop_put _ _ _ _)]
    exact r
  · obtain ⟨w', r, h1, h2, h3, h4, h5, h6⟩ := errSlab_run (C := C) w hn
    refine ⟨w', ?_, h2, h3, h4, h5, h1, fun h => absurd h h0⟩
    unfold errLoad
    rw [M.bind_ok (M.attr_some (by exact hd)), if_neg h0]
    exact r

/-! ### One slab -/

theorem ufSum_congr {q : ℕ} (c : ℕ → ℝ) {f g : ℕ → V} (h : ∀ j ≤ q, f j = g j) : ufSum q c f = ufSum q c g := by
  unfold ufSum
  congr 1
  refine List.map_congr_left fun j hj => ?_
  rw [h j (by simpa [Nat.lt_succ_iff] using hj)]

theorem uhAt_congr {D : Disc V} {n : ℕ} {f g : ℕ → V} {a b : V} (h : ∀ j ≤ D.q, f j = g j) (h' : 0 < n → a = b) (t : ℝ) :
    uhAt D n f a t = uhAt D n g b t ∧ uhPrimeAt D n f a t = uhPrimeAt D n g b t := by
  unfold uhAt uhPrimeAt
  simp only [ufSum_congr _ h]
  by_cases hn : 0 < n
  · simp [if_pos hn, h 0 (Nat.zero_le _), h' hn]
  · simp [if_neg hn]

/-- The post-processed displacement computed from `v` on slab `n`, and the code's time derivative. -/
noncomputable def Cfg.uh (C : Cfg V) (v : Vec) (n : ℕ) (t : ℝ) : V :=
  uhAt C.D n (fun j => C.u1Node v (n * (C.D.q + 1) + j)) (C.u1Node v (n * (C.D.q + 1) - 1)) t
noncomputable def Cfg.uhPrime (C : Cfg V) (v : Vec) (n : ℕ) (t : ℝ) : V :=
  uhPrimeAt C.D n (fun j => C.u1Node v (n * (C.D.q + 1) + j)) (C.u1Node v (n * (C.D.q + 1) - 1)) t

/-- Sample times in slab `n`. -/
noncomputable def Cfg.inSlab (C : Cfg V) (n : ℕ) : List ℝ :=
  C.samples.filter fun t => t ≥ n * C.D.dt ∧ t ≤ n * C.D.dt + C.D.dt

noncomputable def Cfg.errU (C : Cfg V) (v : Vec) (n : ℕ) (t : ℝ) : ℝ := Real.sqrt (sqErr C.S (C.uh v n t) (C.D.sol t))
noncomputable def Cfg.errUt (C : Cfg V) (v : Vec) (n : ℕ) (t : ℝ) : ℝ := Real.sqrt (sqErr C.S (C.uhPrime v n t) (C.dsol t))

/-- Contribution of a quadrature point of slab `n`. -/
noncomputable def Cfg.quadErr (C : Cfg V) (v : Vec) (n : ℕ) (p : ℝ × ℝ) : ℝ :=
  p.2 * C.D.dt * sqErr C.S (C.uhPrime v n (n * C.D.dt + C.D.dt * p.1)) (C.dsol (n * C.D.dt + C.D.dt * p.1))

noncomputable def Cfg.accStep (C : Cfg V) (v : Vec) (acc : ErrAcc) (n : ℕ) : ErrAcc :=
  ⟨acc.intIdx + (C.D.q + 1), acc.su ++ (C.inSlab n).map (C.errU v n), acc.sut ++ (C.inSlab n).map (C.errUt v n),
    acc.total + ((C.ptsHo.zip C.wsHo).map (C.quadErr v n)).sum⟩

theorem foldl_add_sum (f : α → ℝ) (l : List α) (a : ℝ) : l.foldl (fun t p => t + f p) a = a + (l.map f).sum := by
  induction l generalizing a with
  | nil => simp
  | cons b l ih => simp [ih, add_assoc]

theorem foldl_append_pair (f g : α → ℝ) (l : List α) (a : List ℝ × List ℝ) :
    l.foldl (fun acc t => (acc.1 ++ [f t], acc.2 ++ [g t])) a = (a.1 ++ l.map f, a.2 ++ l.map g) := by
  induction l generalizing a with
  | nil => simp
  | cons b l ih => simp [ih]

theorem errBody_run {w : World V} (hd : w.obj.dofmaps = some (mkDofmaps C)) {n : ℕ} (hn : n < C.D.N) {acc : ErrAcc}
    (hi : acc.intIdx = ((n * (C.D.q + 1) : ℕ) : ℤ)) :
    Run w (errBody C acc n w) fun r w' => r = C.accStep (w.heap .uh) acc n ∧ w'.obj = w.obj ∧
      w'.heap .uh = w.heap .uh := by
  obtain ⟨w₁, r1, o1, s1, c1, u1, hs, hm⟩ := errLoad_run hd hn
  have hU := fun t => uhAt_congr (D := C.D) (n := n) (g := fun j => C.u1Node (w.heap .uh) (n * (C.D.q + 1) + j)) hs hm t
  unfold errBody
  rw [hi, M.bind_ok r1, M.bind_ok (show getVec .u1Minus w₁ = (.ok (w₁.heap .u1Minus), w₁) from rfl),
    M.bind_ok (M.get_run _)]
  refine Run.rebase s1 c1 ?_
  have hq : errQuad C n (fun j => nodeFun C.fe (w₁.heap (.u1Slab j))) (nodeFun C.fe (w₁.heap .u1Minus)) acc.total
      = M.forAcc (C.ptsHo.zip C.wsHo) acc.total (fun t p => if True then do ext; return t + C.quadErr (w.heap .uh) n p
        else return t) := by
    unfold errQuad
    congr 1
    funext t p
    simp only [if_true, (hU _).2]
    rfl
  have hsm : errSamples C n (fun j => nodeFun C.fe (w₁.heap (.u1Slab j))) (nodeFun C.fe (w₁.heap .u1Minus)) (acc.su, acc.sut)
      = M.forAcc C.samples (acc.su, acc.sut) (fun a t => if t ≥ n * C.D.dt ∧ t ≤ n * C.D.dt + C.D.dt then do
          ext; return (a.1 ++ [C.errU (w.heap .uh) n t], a.2 ++ [C.errUt (w.heap .uh) n t]) else return a) := by
    unfold errSamples
    congr 1
    funext a t
    simp only [(hU _).1, (hU _).2]
    rfl
  rw [hq, hsm]
  refine Run.bind (forAcc_calls (fun _ => True) _ _ _ _) ?_
  rintro t w₂ ⟨rfl, o2, u2⟩
  refine Run.bind (forAcc_calls _ _ _ _ _) ?_
  rintro s w₃ ⟨rfl, o3, u3⟩
  refine ⟨⟨?_, o3.trans (o2.trans o1), by rw [u3, u2, u1]⟩, rfl, le_rfl⟩
  rw [foldl_append_pair (C.errU (w.heap .uh) n) (C.errUt (w.heap .uh) n), foldl_add_sum]
  simp [Cfg.accStep, hi, Cfg.inSlab]

/-- The whole loop. -/
theorem errLoop_run {w : World V} (hd : w.obj.dofmaps = some (mkDofmaps C)) :
    Run w (M.forAcc (List.range C.D.N) ⟨0, [], [], 0⟩ (errBody C) w) fun r w' =>
      r = ⟨((C.D.N * (C.D.q + 1) : ℕ) : ℤ),
        (List.range C.D.N).flatMap fun n => (C.inSlab n).map (C.errU (w.heap .uh) n),
        (List.range C.D.N).flatMap fun n => (C.inSlab n).map (C.errUt (w.heap .uh) n),
        ((List.range C.D.N).map fun n => ((C.ptsHo.zip C.wsHo).map (C.quadErr (w.heap .uh) n)).sum).sum⟩ ∧
      w'.obj = w.obj := by
  let A : ℕ → ErrAcc := fun m => ⟨((m * (C.D.q + 1) : ℕ) : ℤ),
        (List.range m).flatMap fun n => (C.inSlab n).map (C.errU (w.heap .uh) n),
        (List.range m).flatMap fun n => (C.inSlab n).map (C.errUt (w.heap .uh) n),
        ((List.range m).map fun n => ((C.ptsHo.zip C.wsHo).map (C.quadErr (w.heap .uh) n)).sum).sum⟩
  refine (Run.forAcc (fun l acc w' => ∃ m, m + l.length = C.D.N ∧ l = List.range' m l.length ∧ acc = A m ∧
    w'.obj = w.obj ∧ w'.heap .uh = w.heap .uh) ?_ (List.range C.D.N) ⟨0, [], [], 0⟩ w
      ⟨0, by simp, by simp [List.range_eq_range'], by simp [A], rfl, rfl⟩).mono ?_
  · rintro a l acc w' ⟨m, h1, h2, rfl, h4, h5⟩
    simp only [List.length_cons, List.range'_succ, List.cons.injEq] at h1 h2
    obtain ⟨rfl, h2⟩ := h2
    refine (errBody_run (w := w') (by rw [h4]; exact hd) (by omega) rfl).mono ?_
    rintro r w'' ⟨rfl, h6, h7⟩
    refine ⟨a + 1, by omega, h2, ?_, h6.trans h4, h7.trans h5⟩
    simp only [Cfg.accStep, A, h5, List.range_succ, List.flatMap_append, List.map_append, List.sum_append]
    simp [add_mul]
  · rintro r w' ⟨m, h1, h2, rfl, h4, h5⟩
    simp only [List.length_nil, Nat.add_zero] at h1
    subst h1
    exact ⟨rfl, h4⟩

end Dxss
