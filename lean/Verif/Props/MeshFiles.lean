import Verif.Model.MeshFiles
import Mathlib.Tactic.IntervalCases
import Mathlib.Data.Finset.Max
import Mathlib.Algebra.Order.BigOperators.Group.Finset

/-!
# C54: parallel mesh reading waits for the writer
-/

namespace Dxss.Files

/-- What a file must contain when rank 0 is at position `p`: `b` and `b+1` are the statements that begin and end
writing it. -/
def written (b : ℕ) (p : Pos) (c : Content) : Prop :=
  (p.stmt ≤ b ∧ p.call = 0 → c = .missing) ∧
  (p.stmt ≤ b → ∀ j, p.call = j + 1 → c = .complete j) ∧
  (p.stmt = b + 1 → c = .partialContent) ∧
  (b + 2 ≤ p.stmt → c = .complete p.call)

/-- The invariant of synchronised executions. -/
structure Inv (ranks : ℕ) (s : St) : Prop where
  stmt : ∀ r, firstStmt r ≤ (s.pos r).stmt ∧ (s.pos r).stmt ≤ 12
  msh : written 0 (s.pos 0) (s.files .msh)
  mesh : written 3 (s.pos 0) (s.files .mesh)
  tags : written 5 (s.pos 0) (s.files .tags)
  first : ∀ r < ranks, 9 ≤ (s.pos r).stmt → ∀ r' < ranks, (s.pos r').atLeast ⟨(s.pos r).call, 8⟩
  second : ∀ r < ranks, 12 ≤ (s.pos r).stmt → ∀ r' < ranks, (s.pos r').atLeast ⟨(s.pos r).call, 11⟩
  previous : ∀ r < ranks, ∀ j, (s.pos r).call = j + 1 → ∀ r' < ranks, (s.pos r').atLeast ⟨j, 11⟩

/-- Effect of the statement at position `p` on a file. -/
def fileAfter (p : Pos) (f : File) (c : Content) : Content :=
  match instr p.stmt with
  | .beginWrite g => if g = f then .partialContent else c
  | .endWrite g => if g = f then .complete p.call else c
  | _ => c

/-- The faults a step adds. -/
def faultAfter (s : St) (rank : ℕ) : List Fault :=
  match instr (s.pos rank).stmt with
  | .read f => if s.files f = .complete (s.pos rank).call then []
      else [⟨rank, (s.pos rank).call, f, s.files f⟩]
  | _ => []

theorem step_some {sync : Bool} {ranks calls : ℕ} {s s' : St} {r : ℕ} (h : step sync ranks calls s r = some s') :
    r < ranks ∧ (s.pos r).call < calls ∧ s'.pos = Function.update s.pos r ((s.pos r).next r) ∧
    (∀ f, s'.files f = fileAfter (s.pos r) f (s.files f)) ∧ s'.faults = s.faults ++ faultAfter s r ∧
    (sync = true → instr (s.pos r).stmt = .leave → ∀ r' < ranks, (s.pos r').atLeast (s.pos r)) := by
  unfold step at h
  split at h
  · cases h
  · rename_i hb
    refine ⟨by omega, by omega, ?_⟩
    unfold fileAfter faultAfter
    split at h
    · rename_i f hi
      cases h
      refine ⟨rfl, fun g => ?_, by simp [hi, St.move], by simp [hi]⟩
      by_cases hg : f = g
      · subst hg; simp [hi]
      · simp [hi, hg, Function.update_of_ne (Ne.symm hg)]
    · rename_i f hi
      cases h
      refine ⟨rfl, fun g => ?_, by simp [hi, St.move], by simp [hi]⟩
      by_cases hg : f = g
      · subst hg; simp [hi]
      · simp [hi, hg, Function.update_of_ne (Ne.symm hg)]
    · rename_i hi
      cases h
      exact ⟨rfl, fun g => by simp [hi, St.move], by simp [hi, St.move], by simp [hi]⟩
    · rename_i hi
      split at h
      · cases h
      · rename_i hw
        cases h
        refine ⟨rfl, fun g => by simp [hi, St.move], by simp [hi, St.move], fun h1 _ => ?_⟩
        by_contra hc
        exact hw ⟨h1, hc⟩
    · rename_i f hi
      split at h
      · rename_i hc
        cases h
        exact ⟨rfl, fun g => by simp [hi, St.move], by simp [hi, hc, St.move], by simp [hi]⟩
      · rename_i hc
        cases h
        exact ⟨rfl, fun g => by simp [hi, St.move], by simp [hi, hc], by simp [hi]⟩

theorem written_step {b : ℕ} {f : File} (hb : (f = .msh ∧ b = 0) ∨ (f = .mesh ∧ b = 3) ∨ (f = .tags ∧ b = 5)) {p : Pos}
    (hp : p.stmt ≤ 12) {c : Content} (h : written b p c) : written b (p.next 0) (fileAfter p f c) := by
  obtain ⟨j, q⟩ := p
  simp only at hp
  rcases hb with ⟨rfl, rfl⟩ | ⟨rfl, rfl⟩ | ⟨rfl, rfl⟩ <;> interval_cases q <;>
    simp_all [written, Pos.next, fileAfter, instr, firstStmt]

theorem fileAfter_other {p : Pos} (hp : 7 ≤ p.stmt) (hp' : p.stmt ≤ 12) (f : File) (c : Content) :
    fileAfter p f c = c := by
  obtain ⟨j, q⟩ := p
  simp only at hp hp'
  interval_cases q <;> rfl

theorem leave_iff {q : ℕ} (hq : q ≤ 12) : instr q = .leave ↔ q = 8 ∨ q = 11 := by
  interval_cases q <;> simp [instr]

theorem next_call (r : ℕ) (p : Pos) : (p.next r).call = if p.stmt = 12 then p.call + 1 else p.call := by
  unfold Pos.next; split <;> rfl
theorem next_stmt (r : ℕ) (p : Pos) : (p.next r).stmt = if p.stmt = 12 then firstStmt r else p.stmt + 1 := by
  unfold Pos.next; split <;> rfl

theorem firstStmt_le (r : ℕ) : firstStmt r ≤ 7 := by unfold firstStmt; split <;> omega

theorem atLeast_step {s : St} {r r' : ℕ} {p q : Pos} (h : (s.pos r').atLeast q) (hp : p.atLeast (s.pos r)) :
    (Function.update s.pos r p r').atLeast q := by
  by_cases hr : r' = r
  · subst hr
    rw [Function.update_self]
    unfold Pos.atLeast at *
    omega
  · rw [Function.update_of_ne hr]; exact h

theorem next_atLeast (r : ℕ) (p : Pos) : (p.next r).atLeast p := by
  unfold Pos.atLeast
  rw [next_call, next_stmt]
  split <;> omega

theorem Inv.step {ranks calls : ℕ} {s s' : St} {r : ℕ} (h : Inv ranks s)
    (hs : Files.step true ranks calls s r = some s') : Inv ranks s' := by
  obtain ⟨hr, -, hpos, hfiles, -, hsync⟩ := step_some hs
  have h12 := (h.stmt r).2
  have hnext := next_atLeast r (s.pos r)
  have hsync' : (s.pos r).stmt = 8 ∨ (s.pos r).stmt = 11 → ∀ r' < ranks, (s.pos r').atLeast (s.pos r) :=
    fun h' => hsync rfl ((leave_iff h12).2 h')
  have hw : ∀ b f, ((f = File.msh ∧ b = 0) ∨ (f = .mesh ∧ b = 3) ∨ (f = .tags ∧ b = 5)) →
      written b (s.pos 0) (s.files f) → written b (s'.pos 0) (s'.files f) := by
    intro b f hb hw
    rw [hpos, hfiles]
    by_cases hr0 : r = 0
    · subst hr0
      rw [Function.update_self]
      exact written_step hb h12 hw
    · rw [Function.update_of_ne (Ne.symm hr0), fileAfter_other ?_ h12]
      · exact hw
      · have := (h.stmt r).1
        simpa [firstStmt, hr0] using this
  refine ⟨fun r' => ?_, hw _ _ (by simp) h.msh, hw _ _ (by simp) h.mesh, hw _ _ (by simp) h.tags, ?_, ?_, ?_⟩
  · rw [hpos]
    by_cases hr' : r' = r
    · subst hr'
      rw [Function.update_self, next_stmt]
      have := h.stmt r'
      have := firstStmt_le r'
      split <;> omega
    · rw [Function.update_of_ne hr']; exact h.stmt r'
  · intro r₁ h₁ hst r' hr'
    rw [hpos] at hst ⊢
    refine atLeast_step ?_ hnext
    by_cases he : r₁ = r
    · subst he
      rw [Function.update_self] at hst ⊢
      rw [next_stmt] at hst
      rw [next_call]
      have := firstStmt_le r₁
      by_cases h12' : (s.pos r₁).stmt = 12
      · simp [h12'] at hst; omega
      · simp only [h12', if_false] at hst ⊢
        by_cases h8 : (s.pos r₁).stmt = 8
        · have := hsync' (.inl h8) r' hr'
          rwa [show s.pos r₁ = ⟨(s.pos r₁).call, 8⟩ by rw [← h8]] at this
        · exact h.first r₁ h₁ (by omega) r' hr'
    · rw [Function.update_of_ne he] at hst ⊢
      exact h.first r₁ h₁ hst r' hr'
  · intro r₁ h₁ hst r' hr'
    rw [hpos] at hst ⊢
    refine atLeast_step ?_ hnext
    by_cases he : r₁ = r
    · subst he
      rw [Function.update_self] at hst ⊢
      rw [next_stmt] at hst
      rw [next_call]
      have := firstStmt_le r₁
      by_cases h12' : (s.pos r₁).stmt = 12
      · simp [h12'] at hst; omega
      · simp only [h12', if_false] at hst ⊢
        have h11 : (s.pos r₁).stmt = 11 := by omega
        have := hsync' (.inr h11) r' hr'
        rwa [show s.pos r₁ = ⟨(s.pos r₁).call, 11⟩ by rw [← h11]] at this
    · rw [Function.update_of_ne he] at hst ⊢
      exact h.second r₁ h₁ hst r' hr'
  · intro r₁ h₁ j hj r' hr'
    rw [hpos] at hj ⊢
    refine atLeast_step ?_ hnext
    by_cases he : r₁ = r
    · subst he
      rw [Function.update_self, next_call] at hj
      by_cases h12' : (s.pos r₁).stmt = 12
      · simp only [h12', if_true] at hj
        have := h.second r₁ h₁ (by omega) r' hr'
        rwa [show (s.pos r₁).call = j by omega] at this
      · simp only [h12', if_false] at hj
        exact h.previous r₁ h₁ j hj r' hr'
    · rw [Function.update_of_ne he] at hj
      exact h.previous r₁ h₁ j hj r' hr'

theorem Inv.init (ranks : ℕ) : Inv ranks init := by
  refine ⟨fun r => ?_, ?_, ?_, ?_, fun r _ h => ?_, fun r _ h => ?_, fun r _ j h => by simp [Files.init] at h⟩
  · have := firstStmt_le r
    simp only [Files.init]; omega
  all_goals first | simp [written, Files.init, firstStmt]; done | skip
  all_goals
    have := firstStmt_le r
    simp only [Files.init] at h
    omega

/-- A read finds the mesh file complete. -/
theorem Inv.read_mesh {ranks : ℕ} {s : St} (h : Inv ranks s) {r : ℕ} (hr : r < ranks) (hp : (s.pos r).stmt = 9) :
    s.files .mesh = .complete (s.pos r).call := by
  have h0 : 0 < ranks := by omega
  have h1 := h.first r hr (by omega) 0 h0
  have h2 : (s.pos 0).call ≤ (s.pos r).call := by
    by_contra hc
    obtain ⟨k, hk⟩ : ∃ k, (s.pos 0).call = k + 1 := ⟨(s.pos 0).call - 1, by omega⟩
    have := h.previous 0 h0 k hk r hr
    unfold Pos.atLeast at this
    simp only at this
    omega
  unfold Pos.atLeast at h1
  simp only at h1
  have he : (s.pos 0).call = (s.pos r).call := by omega
  rw [← he]
  exact h.mesh.2.2.2 (by omega)

theorem Inv.read_msh {ranks : ℕ} {s : St} (h : Inv ranks s) {r : ℕ} (hp : (s.pos r).stmt = 2) :
    s.files .msh = .complete (s.pos r).call := by
  have hr : r = 0 := by
    by_contra hr
    have := (h.stmt r).1
    simp only [firstStmt, hr, if_false] at this
    omega
  subst hr
  exact h.msh.2.2.2 (by omega)

/-- In the last call nobody overwrites the tag file. -/
theorem Inv.read_tags {ranks calls : ℕ} {s : St} (h : Inv ranks s) {r : ℕ} (hr : r < ranks)
    (hp : 12 ≤ (s.pos r).stmt) (hlast : (s.pos r).call + 1 = calls) (h0c : (s.pos 0).call ≤ calls)
    (h0s : (s.pos 0).call = calls → (s.pos 0).stmt = 0) :
    s.files .tags = .complete (s.pos r).call := by
  have h0 : 0 < ranks := by omega
  have h1 := h.second r hr hp 0 h0
  unfold Pos.atLeast at h1
  simp only at h1
  by_cases hc : (s.pos 0).call = calls
  · exact h.tags.2.1 (by rw [h0s hc]; omega) _ (by omega)
  · have he : (s.pos 0).call = (s.pos r).call := by omega
    rw [← he]
    exact h.tags.2.2.2 (by omega)

/-- No process runs beyond the last call. -/
def Bounded (calls : ℕ) (s : St) : Prop :=
  ∀ r, (s.pos r).call ≤ calls ∧ ((s.pos r).call = calls → (s.pos r).stmt = firstStmt r)

theorem Bounded.step {sync : Bool} {ranks calls : ℕ} {s s' : St} {r : ℕ} (h : Bounded calls s)
    (hs : Files.step sync ranks calls s r = some s') : Bounded calls s' := by
  obtain ⟨-, hc, hpos, -⟩ := step_some hs
  intro r'
  rw [hpos]
  by_cases he : r' = r
  · subst he
    rw [Function.update_self, next_call, next_stmt]
    split <;> constructor <;> intros <;> omega
  · rw [Function.update_of_ne he]; exact h r'

theorem Bounded.init (calls : ℕ) : Bounded calls init := fun _ => ⟨Nat.zero_le _, fun _ => rfl⟩

theorem run_append (sync : Bool) (ranks calls : ℕ) (l l' : List ℕ) (s : St) :
    run sync ranks calls (l ++ l') s = run sync ranks calls l' (run sync ranks calls l s) := by
  induction l generalizing s with
  | nil => rfl
  | cons r l ih => exact ih _

/-- What holds initially and is kept by every step holds after every execution. -/
theorem run_inv {sync : Bool} {ranks calls : ℕ} {P : St → Prop}
    (h : ∀ s s' r, P s → step sync ranks calls s r = some s' → P s') (l : List ℕ) {s : St} (h₀ : P s) :
    P (run sync ranks calls l s) := by
  induction l generalizing s with
  | nil => exact h₀
  | cons r l ih =>
    refine ih ?_
    rcases hs : step sync ranks calls s r with _ | s'
    · exact h₀
    · exact h s s' r h₀ hs

/-- The only reads that may go wrong: the tag file, in a call that is not the last one. -/
def Harmless (calls : ℕ) (f : Fault) : Prop := f.file = .tags ∧ f.call + 1 < calls

theorem faults_step {ranks calls : ℕ} {s s' : St} {r : ℕ} (h : Inv ranks s) (hb : Bounded calls s)
    (hf : ∀ f ∈ s.faults, Harmless calls f) (hs : step true ranks calls s r = some s') :
    ∀ f ∈ s'.faults, Harmless calls f := by
  obtain ⟨hr, hc, -, -, hfaults, -⟩ := step_some hs
  intro f hmem
  rw [hfaults, List.mem_append] at hmem
  rcases hmem with hmem | hmem
  · exact hf f hmem
  · have h12 := (h.stmt r).2
    unfold faultAfter at hmem
    split at hmem
    · rename_i g hi
      have hcase : (g = .msh ∧ (s.pos r).stmt = 2) ∨ (g = .mesh ∧ (s.pos r).stmt = 9) ∨
          (g = .tags ∧ (s.pos r).stmt = 12) := by
        generalize (s.pos r).stmt = q at hi h12
        interval_cases q <;> simp [instr] at hi <;> subst hi <;> simp
      rcases hcase with ⟨rfl, hq⟩ | ⟨rfl, hq⟩ | ⟨rfl, hq⟩
      · rw [if_pos (h.read_msh hq)] at hmem; cases hmem
      · rw [if_pos (h.read_mesh hr hq)] at hmem; cases hmem
      · by_cases hl : (s.pos r).call + 1 = calls
        · rw [if_pos (h.read_tags hr (by omega) hl (hb 0).1 fun e => (hb 0).2 e)] at hmem; cases hmem
        · split at hmem
          · cases hmem
          · rw [List.mem_singleton] at hmem
            subst hmem
            exact ⟨rfl, by simp only []; omega⟩
    · cases hmem

theorem reachable {ranks calls : ℕ} (l : List ℕ) :
    Inv ranks (run true ranks calls l init) ∧ Bounded calls (run true ranks calls l init) ∧
      ∀ f ∈ (run true ranks calls l init).faults, Harmless calls f :=
  run_inv (P := fun s => Inv ranks s ∧ Bounded calls s ∧ ∀ f ∈ s.faults, Harmless calls f)
    (fun _ _ _ h hs => ⟨h.1.step hs, h.2.1.step hs, faults_step h.1 h.2.1 h.2.2 hs⟩) l
    ⟨Inv.init _, Bounded.init _, by simp [Files.init]⟩

/-- C54: if opening a file synchronises, then in every execution, for every number of processes and every number of
successive calls, each read of the mesh file (and of the gmsh file) finds the file completely written by the same
call; so does every read of the tag file in the last call. -/
theorem C54_synchronised (ranks calls : ℕ) (schedule : List ℕ) :
    ∀ f ∈ (run true ranks calls schedule init).faults, f.file = .tags ∧ f.call + 1 < calls :=
  (reachable schedule).2.2

/-- C54 for the builders that write once: no read goes wrong. -/
theorem C54_one_call (ranks : ℕ) (schedule : List ℕ) : (run true ranks 1 schedule init).faults = [] :=
  List.eq_nil_iff_forall_not_mem.2 fun f hf => by
    have := (C54_synchronised ranks 1 schedule f hf).2
    omega

/-- Work left to a process. -/
def left (calls : ℕ) (p : Pos) : ℕ := 13 * calls + 12 - (13 * p.call + p.stmt)

theorem can_move {ranks calls : ℕ} {s : St} {r : ℕ} (hr : r < ranks) (hc : (s.pos r).call < calls)
    (hmin : ∀ r' < ranks, (s.pos r').atLeast (s.pos r)) : ∃ s', step true ranks calls s r = some s' := by
  unfold step
  rw [if_neg (by omega)]
  split
  · exact ⟨_, rfl⟩
  · exact ⟨_, rfl⟩
  · exact ⟨_, rfl⟩
  · rw [if_neg (by simpa using hmin)]; exact ⟨_, rfl⟩
  · split <;> exact ⟨_, rfl⟩

theorem progress {ranks calls : ℕ} {s : St} (hi : Inv ranks s) {r₀ : ℕ} (h₀ : r₀ < ranks)
    (hc : (s.pos r₀).call < calls) : ∃ r < ranks, (s.pos r).call < calls ∧ ∃ s', step true ranks calls s r = some s' := by
  obtain ⟨r, hr, hmin⟩ := Finset.exists_min_image (Finset.range ranks) (fun r => 13 * (s.pos r).call + (s.pos r).stmt)
    ⟨r₀, Finset.mem_range.2 h₀⟩
  rw [Finset.mem_range] at hr
  have hm : ∀ r' < ranks, 13 * (s.pos r).call + (s.pos r).stmt ≤ 13 * (s.pos r').call + (s.pos r').stmt :=
    fun r' h' => hmin r' (Finset.mem_range.2 h')
  have e1 := hm r₀ h₀
  have e2 := hi.stmt r₀
  have e3 := hi.stmt r
  refine ⟨r, hr, by omega, can_move hr (by omega) fun r' hr' => ?_⟩
  have e4 := hm r' hr'
  have e5 := hi.stmt r'
  unfold Pos.atLeast
  omega

/-- C54: waiting never blocks for good; from every state reached, some continuation lets every process finish. -/
theorem C54_no_deadlock (ranks calls : ℕ) (schedule : List ℕ) :
    ∃ more, ∀ r < ranks, calls ≤ ((run true ranks calls (schedule ++ more) init).pos r).call := by
  have main : ∀ (n : ℕ) (s : St), Inv ranks s →
      ∑ r ∈ Finset.range ranks, left calls (s.pos r) ≤ n →
      ∃ more, ∀ r < ranks, calls ≤ ((run true ranks calls more s).pos r).call := by
    intro n
    induction n with
    | zero =>
      intro s hi h
      refine ⟨[], fun r hr => ?_⟩
      have := Finset.single_le_sum (f := fun r => left calls (s.pos r)) (fun _ _ => Nat.zero_le _)
        (Finset.mem_range.2 hr)
      have e := hi.stmt r
      simp only [left] at this h
      simp only [run]
      omega
    | succ n ih =>
      intro s hi h
      by_cases hall : ∀ r < ranks, calls ≤ (s.pos r).call
      · exact ⟨[], hall⟩
      · push Not at hall
        obtain ⟨r₀, h₀, hc₀⟩ := hall
        obtain ⟨r, hr, hc, s', hs⟩ := progress hi h₀ hc₀
        have hpos := (step_some hs).2.2.1
        have hlt : ∑ r ∈ Finset.range ranks, left calls (s'.pos r) < ∑ r ∈ Finset.range ranks, left calls (s.pos r) := by
          refine Finset.sum_lt_sum (fun i _ => ?_) ⟨r, Finset.mem_range.2 hr, ?_⟩
          · rw [hpos]
            by_cases he : i = r
            · subst he
              rw [Function.update_self, left, left, next_call, next_stmt]
              split <;> omega
            · rw [Function.update_of_ne he]
          · rw [hpos, Function.update_self, left, left, next_call, next_stmt]
            have := (hi.stmt r).2
            split <;> omega
        obtain ⟨more, hm⟩ := ih s' (hi.step hs) (by omega)
        refine ⟨r :: more, fun q hq => ?_⟩
        simp only [run, hs, Option.getD_some]
        exact hm q hq
  obtain ⟨more, hm⟩ := main _ _ (reachable (ranks := ranks) (calls := calls) schedule).1 le_rfl
  exact ⟨more, fun r hr => by rw [run_append]; exact hm r hr⟩

/-- C54, the other direction: if opening does not synchronise, then for every number of processes above one there is an
execution in which a process reads the mesh file before it exists. -/
theorem C54_not_synchronised {ranks calls : ℕ} (hr : 2 ≤ ranks) (hc : 1 ≤ calls) :
    ∃ schedule, ⟨1, 0, .mesh, .missing⟩ ∈ (run false ranks calls schedule init).faults := by
  refine ⟨[1, 1, 1], ?_⟩
  have h1 : ¬ ranks ≤ 1 := by omega
  have h2 : calls ≠ 0 := by omega
  simp [run, step, init, firstStmt, instr, St.move, Pos.next, h1, h2]

/-! ### The tag file in repeated calls -/

/-- A statement whose execution changes no file and causes no fault. -/
def Quiet (ranks : ℕ) (s : St) (p : Pos) : Prop :=
  instr p.stmt = .enter ∨ (instr p.stmt = .leave ∧ ∀ r < ranks, (s.pos r).atLeast p) ∨
    ∃ f, instr p.stmt = .read f ∧ s.files f = .complete p.call

theorem step_quiet {ranks calls : ℕ} {s : St} {r : ℕ} {p : Pos} (hr : r < ranks) (hp : s.pos r = p)
    (hc : p.call < calls) (hq : Quiet ranks s p) : step true ranks calls s r = some (s.move r) := by
  unfold step
  rw [hp, if_neg (by omega)]
  rcases hq with h | ⟨h, h'⟩ | ⟨f, h, h'⟩
  · rw [h]
  · rw [h]; simp only []
    rw [if_neg (by simpa using h')]
  · rw [h]; simp only []
    rw [if_pos h']

theorem quiet_move {ranks : ℕ} {s : St} {p : Pos} (r : ℕ) (hq : Quiet ranks s p) : Quiet ranks (s.move r) p := by
  rcases hq with h | ⟨h, h'⟩ | ⟨f, h, h'⟩
  · exact .inl h
  · exact .inr (.inl ⟨h, fun r' hr' => atLeast_step (h' r' hr') (next_atLeast r _)⟩)
  · exact .inr (.inr ⟨f, h, h'⟩)

/-- Several processes other than rank 0 execute the same quiet statement, one after the other. -/
theorem run_pass {ranks calls : ℕ} {p : Pos} (hc : p.call < calls) (l : List ℕ) (hl : l.Nodup) {s : St}
    (hr : ∀ r ∈ l, r < ranks ∧ r ≠ 0 ∧ s.pos r = p) (hq : Quiet ranks s p) :
    (∀ r ∈ l, (run true ranks calls l s).pos r = p.next 1) ∧
    (∀ r, r ∉ l → (run true ranks calls l s).pos r = s.pos r) ∧
    (run true ranks calls l s).files = s.files ∧ (run true ranks calls l s).faults = s.faults := by
  induction l generalizing s with
  | nil => simp [run]
  | cons r l ih =>
    rw [List.nodup_cons] at hl
    obtain ⟨h1, h2, h3⟩ := hr r (by simp)
    have hstep := step_quiet h1 h3 hc hq
    simp only [run, hstep, Option.getD_some]
    have hmove : (s.move r).pos r = p.next 1 := by
      simp only [St.move, Function.update_self, h3]
      unfold Pos.next firstStmt
      simp [h2]
    obtain ⟨g1, g2, g3, g4⟩ := ih hl.2 (s := s.move r) (fun q hq' => by
      obtain ⟨k1, k2, k3⟩ := hr q (by simp [hq'])
      refine ⟨k1, k2, ?_⟩
      have : q ≠ r := fun e => hl.1 (e ▸ hq')
      simp only [St.move, Function.update_of_ne this, k3]) (quiet_move r hq)
    refine ⟨fun q hq' => ?_, fun q hq' => ?_, g3, g4⟩
    · rcases List.mem_cons.1 hq' with rfl | hm
      · rw [g2 q hl.1]; exact hmove
      · exact g1 q hm
    · rw [List.mem_cons, not_or] at hq'
      rw [g2 q hq'.2]
      simp only [St.move, Function.update_of_ne hq'.1]

/-- The processes other than rank 0. -/
def others (ranks : ℕ) : List ℕ := (List.range ranks).filter (· ≠ 0)

theorem mem_others {ranks r : ℕ} : r ∈ others ranks ↔ r < ranks ∧ r ≠ 0 := by
  simp [others]

/-- Rank 0 executes its statements up to the first collective opening. -/
theorem run_writer {ranks calls : ℕ} (hr : 1 ≤ ranks) {s : St} {c : ℕ} (hc : c < calls) (h : s.pos 0 = ⟨c, 0⟩) :
    ∀ k ≤ 7, ((run true ranks calls (List.replicate k 0) s).pos 0 = ⟨c, k⟩ ∧
      (∀ r, r ≠ 0 → (run true ranks calls (List.replicate k 0) s).pos r = s.pos r) ∧
      (2 ≤ k → (run true ranks calls (List.replicate k 0) s).files .msh = .complete c) ∧
      (5 ≤ k → (run true ranks calls (List.replicate k 0) s).files .mesh = .complete c) ∧
      (k = 6 → (run true ranks calls (List.replicate k 0) s).files .tags = .partialContent) ∧
      (7 ≤ k → (run true ranks calls (List.replicate k 0) s).files .tags = .complete c) ∧
      (run true ranks calls (List.replicate k 0) s).faults = s.faults) := by
  intro k
  induction k with
  | zero => intro _; simp [run, h]
  | succ k ih =>
    intro hk
    obtain ⟨i1, i2, i3, i4, i5, i6, i7⟩ := ih (by omega)
    rw [List.replicate_succ', run_append]
    generalize run true ranks calls (List.replicate k 0) s = s₁ at *
    have hb : (ranks = 0 ∨ calls ≤ c) = False := by
      refine propext ⟨fun h => ?_, False.elim⟩; omega
    clear ih hr hc
    have h0 : ∀ r, r ≠ 0 → ∀ q : Pos, Function.update s₁.pos 0 q r = s₁.pos r := fun r hr' q =>
      Function.update_of_ne hr' _ _
    have hk' : k ≤ 6 := by omega
    interval_cases k <;>
      simp [run, step, instr, St.move, Pos.next, i1, hb] at i3 i4 i5 i6 ⊢ <;> simp_all

/-- The execution: all processes finish the first call up to the second opening; rank 0 runs ahead into the second
call and starts to overwrite the tag file; then rank 1 reads it. -/
def raceSchedule (ranks : ℕ) : List ℕ :=
  List.replicate 7 0 ++ ([0] ++ (others ranks ++ ([0, 0, 0] ++ (others ranks ++ (others ranks ++ (others ranks ++
    ([0, 0] ++ (List.replicate 6 0 ++ [1, 1]))))))))

theorem run_quiet {ranks calls : ℕ} {s : St} {r : ℕ} {p : Pos} (hr : r < ranks) (hp : s.pos r = p)
    (hc : p.call < calls) (hq : Quiet ranks s p) (l : List ℕ) :
    ∃ s', run true ranks calls (r :: l) s = run true ranks calls l s' ∧ s'.pos r = p.next r ∧
      (∀ r', r' ≠ r → s'.pos r' = s.pos r') ∧ s'.files = s.files :=
  ⟨s.move r, by simp only [run, step_quiet hr hp hc hq, Option.getD_some], by simp [St.move, hp],
    fun r' h => by simp [St.move, Function.update_of_ne h], rfl⟩

theorem run_others {ranks calls : ℕ} {p : Pos} (hc : p.call < calls) {s : St} (hr : ∀ r < ranks, r ≠ 0 → s.pos r = p)
    (hq : Quiet ranks s p) (l : List ℕ) :
    ∃ s', run true ranks calls (others ranks ++ l) s = run true ranks calls l s' ∧
      (∀ r < ranks, r ≠ 0 → s'.pos r = p.next 1) ∧ s'.pos 0 = s.pos 0 ∧ s'.files = s.files := by
  obtain ⟨c1, c2, c3, -⟩ := run_pass hc (others ranks) ((List.nodup_range).filter _) (s := s)
    (fun r h => ⟨(mem_others.1 h).1, (mem_others.1 h).2, hr r (mem_others.1 h).1 (mem_others.1 h).2⟩) hq
  exact ⟨_, run_append _ _ _ _ _ _, fun r h h' => c1 r (mem_others.2 ⟨h, h'⟩),
    c2 0 (fun h => (mem_others.1 h).2 rfl), c3⟩

/-- Every process is at or behind `p` if rank 0 is and the others are. -/
theorem all_atLeast {ranks : ℕ} {s : St} {p q : Pos} (h0 : s.pos 0 = q) (hq : q.atLeast p)
    {q' : Pos} (h : ∀ r < ranks, r ≠ 0 → s.pos r = q') (hq' : q'.atLeast p) : ∀ r < ranks, (s.pos r).atLeast p := by
  intro r hr
  by_cases e : r = 0
  · rw [e, h0]; exact hq
  · rw [h r hr e]; exact hq'

/-- C58: if the builder is called more than once (as by `get_mesh_convex`), synchronising when a file is opened is not
enough for the tag file: for every number of processes above one there is an execution in which a process reads the
tag file while rank 0 is overwriting it for the next call. -/
theorem C58_tags_overwritten {ranks calls : ℕ} (hr : 2 ≤ ranks) (hc : 2 ≤ calls) :
    ∃ schedule, ⟨1, 0, .tags, .partialContent⟩ ∈ (run true ranks calls schedule init).faults := by
  refine ⟨raceSchedule ranks, ?_⟩
  have hr0 : 0 < ranks := by omega
  have hc0 : 0 < calls := by omega
  unfold raceSchedule
  rw [run_append]
  obtain ⟨a1, a2, -, a4, -, a6, -⟩ := run_writer (calls := calls) (ranks := ranks) (by omega) (s := init) (c := 0)
    (by omega) rfl 7 le_rfl
  have a2' : ∀ r < ranks, r ≠ 0 → (run true ranks calls (List.replicate 7 0) init).pos r = ⟨0, 7⟩ := fun r _ h => by
    rw [a2 r h]; simp [init, firstStmt, h]
  generalize run true ranks calls (List.replicate 7 0) init = s₁ at *
  -- all processes reach the first opening
  obtain ⟨s₂, e2, b1, b2, b3⟩ := run_quiet hr0 a1 hc0 (.inl rfl) _
  rw [List.singleton_append, e2]
  obtain ⟨s₃, e3, c1, c2, c3⟩ := run_others hc0 (fun r h h' => by rw [b2 r h', a2' r h h']) (.inl rfl) _
  rw [e3]
  have hm3 : s₃.files .mesh = .complete 0 := by rw [c3, b3]; exact a4 (by omega)
  have ht3 : s₃.files .tags = .complete 0 := by rw [c3, b3]; exact a6 (by omega)
  have p3 : s₃.pos 0 = ⟨0, 8⟩ := by rw [c2, b1]; rfl
  have q3 : ∀ r < ranks, r ≠ 0 → s₃.pos r = ⟨0, 8⟩ := c1
  -- rank 0 leaves, reads and reaches the second opening
  obtain ⟨s₄, e4, p4, o4, f4⟩ := run_quiet hr0 p3 hc0
    (.inr (.inl ⟨rfl, all_atLeast p3 (.inr ⟨rfl, le_rfl⟩) q3 (.inr ⟨rfl, le_rfl⟩)⟩)) _
  rw [List.cons_append, e4]
  obtain ⟨s₅, e5, p5, o5, f5⟩ := run_quiet hr0 (p := ⟨0, 9⟩) p4 hc0
    (.inr (.inr ⟨.mesh, rfl, by rw [f4]; exact hm3⟩)) _
  rw [List.cons_append, e5]
  obtain ⟨s₆, e6, p6, o6, f6⟩ := run_quiet hr0 (p := ⟨0, 10⟩) p5 hc0 (.inl rfl) _
  rw [List.cons_append, e6, List.nil_append]
  have q6 : ∀ r < ranks, r ≠ 0 → s₆.pos r = ⟨0, 8⟩ := fun r h h' => by rw [o6 r h', o5 r h', o4 r h', q3 r h h']
  have p6' : s₆.pos 0 = ⟨0, 11⟩ := p6
  -- so do the others
  obtain ⟨s₇, e7, q7, p7, f7⟩ := run_others hc0 q6
    (.inr (.inl ⟨rfl, all_atLeast p6' (.inr ⟨rfl, by simp⟩) q6 (.inr ⟨rfl, le_rfl⟩)⟩)) _
  rw [e7]
  obtain ⟨s₈, e8, q8, p8, f8⟩ := run_others (p := ⟨0, 9⟩) hc0 q7
    (.inr (.inr ⟨.mesh, rfl, by rw [f7, f6, f5, f4]; exact hm3⟩)) _
  rw [e8]
  obtain ⟨s₉, e9, q9, p9, f9⟩ := run_others (p := ⟨0, 10⟩) hc0 q8 (.inl rfl) _
  rw [e9]
  have p9' : s₉.pos 0 = ⟨0, 11⟩ := by rw [p9, p8, p7, p6']
  have q9' : ∀ r < ranks, r ≠ 0 → s₉.pos r = ⟨0, 11⟩ := q9
  -- rank 0 leaves and reads the tag file
  obtain ⟨s₁₀, e10, p10, o10, f10⟩ := run_quiet hr0 p9' hc0
    (.inr (.inl ⟨rfl, all_atLeast p9' (.inr ⟨rfl, le_rfl⟩) q9' (.inr ⟨rfl, le_rfl⟩)⟩)) _
  rw [List.cons_append, e10]
  obtain ⟨s₁₁, e11, p11, o11, f11⟩ := run_quiet hr0 (p := ⟨0, 12⟩) p10 hc0
    (.inr (.inr ⟨.tags, rfl, by rw [f10, f9, f8, f7, f6, f5, f4]; exact ht3⟩)) _
  rw [List.cons_append, e11, List.nil_append]
  have q11 : ∀ r < ranks, r ≠ 0 → s₁₁.pos r = ⟨0, 11⟩ := fun r h h' => by rw [o11 r h', o10 r h', q9' r h h']
  -- … and starts to overwrite it
  rw [run_append]
  obtain ⟨g1, g2, -, -, g5, -, -⟩ := run_writer (calls := calls) (ranks := ranks) (by omega) (s := s₁₁) (c := 1)
    (by omega) p11 6 (by omega)
  have g2' : ∀ r < ranks, r ≠ 0 → (run true ranks calls (List.replicate 6 0) s₁₁).pos r = ⟨0, 11⟩ := fun r h h' => by
    rw [g2 r h', q11 r h h']
  have g5' := g5 rfl
  generalize run true ranks calls (List.replicate 6 0) s₁₁ = s₁₂ at *
  -- rank 1 reads it
  obtain ⟨s₁₃, e13, p13, o13, f13⟩ := run_quiet (r := 1) (by omega) (g2' 1 (by omega) (by omega)) hc0
    (.inr (.inl ⟨rfl, all_atLeast g1 (.inl (by decide)) g2' (.inr ⟨rfl, le_rfl⟩)⟩)) _
  rw [e13]
  have p13' : s₁₃.pos 1 = ⟨0, 12⟩ := p13
  have hb : (ranks ≤ 1 ∨ calls ≤ 0) = False := propext ⟨fun h => by omega, False.elim⟩
  unfold run run step
  rw [p13']
  simp only [hb, if_false, instr, f13, g5']
  simp

/-- C58: with one process no read goes wrong, for any number of calls. -/
theorem C58_one_process (calls : ℕ) (schedule : List ℕ) : (run true 1 calls schedule init).faults = [] := by
  refine (run_inv (P := fun s => Inv 1 s ∧ s.faults = []) (fun s s' r h hs => ⟨h.1.step hs, ?_⟩) schedule
    ⟨Inv.init _, rfl⟩).2
  obtain ⟨hr, -, -, -, hfaults, -⟩ := step_some hs
  have hr0 : r = 0 := by omega
  subst hr0
  have h12 := (h.1.stmt 0).2
  have hm := h.1.msh.2.2.2
  have hg := h.1.mesh.2.2.2
  have ht := h.1.tags.2.2.2
  rw [hfaults, h.2, List.nil_append]
  unfold faultAfter
  generalize s.pos 0 = p at *
  obtain ⟨c, q⟩ := p
  simp only at h12
  interval_cases q <;> simp_all [instr]

/-- C58: in the last call the tag file is read as written, by every process. -/
theorem C58_last_call (ranks calls : ℕ) (schedule : List ℕ) :
    ∀ f ∈ (run true ranks calls schedule init).faults, f.call + 1 ≠ calls :=
  fun f hf e => by have := (C54_synchronised ranks calls schedule f hf).2; omega

example : ∃ schedule, ⟨1, 0, .tags, .partialContent⟩ ∈ (run true 4 3 schedule init).faults :=
  C58_tags_overwritten (by decide) (by decide)

/-- A synchronised execution of three processes in which all finish and nothing goes wrong. -/
example : ∃ l, (∀ r < 3, 1 ≤ ((run true 3 1 l init).pos r).call) ∧ (run true 3 1 l init).faults = [] := by
  obtain ⟨l, h⟩ := C54_no_deadlock 3 1 [2, 1, 0, 0]
  exact ⟨_, h, C54_one_call 3 _⟩

end Dxss.Files
