import Verif.Model.SpaceTime
import Verif.Lemmas.Forms

/-! # Running imperative code -/

namespace Dxss
namespace M
variable {σ α β γ : Type}

theorem bind_ok {x : M σ α} {f : α → M σ β} {s s' : σ} {a : α} (h : x s = (.ok a, s')) :
    (x >>= f) s = f a s' := by
  change bind' x f s = _
  simp [bind', h]

theorem bind_error {x : M σ α} {f : α → M σ β} {s s' : σ} {e : PyErr} (h : x s = (.error e, s')) :
    (x >>= f) s = (.error e, s') := by
  change bind' x f s = _
  simp [bind', h]

/-- General description of `>>=`. -/
theorem bind_run (x : M σ α) (f : α → M σ β) (s : σ) :
    (x >>= f) s = match (x s).1 with
      | .ok a => f a (x s).2
      | .error e => (.error e, (x s).2) := by
  change bind' x f s = _
  unfold bind'
  rcases x s with ⟨a | a, s'⟩ <;> rfl

@[simp] theorem pure_run (a : α) (s : σ) : (pure a : M σ α) s = (.ok a, s) := rfl
@[simp] theorem ret_run (a : α) (s : σ) : (ret a : M σ α) s = (.ok a, s) := rfl
@[simp] theorem get_run (s : σ) : (get : M σ σ) s = (.ok s, s) := rfl
@[simp] theorem modify_run (f : σ → σ) (s : σ) : (modify f : M σ Unit) s = (.ok (), f s) := rfl
@[simp] theorem raise_run (e : PyErr) (s : σ) : (raise e : M σ α) s = (.error e, s) := rfl
@[simp] theorem lift_run (x : Py α) (s : σ) : (lift x : M σ α) s = (x, s) := rfl

theorem attr_some {f : σ → Option α} {e : PyErr} {s : σ} {a : α} (h : f s = some a) :
    attr f e s = (.ok a, s) := by simp [attr, h]
theorem attr_none {f : σ → Option α} {e : PyErr} {s : σ} (h : f s = none) :
    attr f e s = (.error e, s) := by simp [attr, h]

instance : LawfulMonad (M σ) := LawfulMonad.mk'
  (id_map := by
    intro α x; funext s; change bind' x (fun a => ret a) s = _
    unfold bind'; rcases h : x s with ⟨a | a, s'⟩ <;> rfl)
  (pure_bind := by intros; rfl)
  (bind_assoc := by
    intro α β γ x f g; funext s
    change bind' (bind' x f) g s = bind' x (fun a => bind' (f a) g) s
    unfold bind'
    rcases x s with ⟨a | a, s'⟩ <;> rfl)

@[simp] theorem forList_nil (body : α → M σ Unit) : forList [] body = ret () := rfl
theorem forList_cons (a : α) (l : List α) (body : α → M σ Unit) :
    forList (a :: l) body = (do body a; forList l body) := rfl

theorem forList_append (l l' : List α) (body : α → M σ Unit) :
    forList (l ++ l') body = (do forList l body; forList l' body) := by
  induction l with
  | nil => rfl
  | cons a l ih => simp only [List.cons_append, forList_cons, ih, bind_assoc]

theorem forList_map {δ : Type} (f : δ → α) (l : List δ) (body : α → M σ Unit) :
    forList (l.map f) body = forList l (fun d => body (f d)) := by
  induction l with
  | nil => rfl
  | cons a l ih => simp only [List.map_cons, forList_cons, ih]

/-- Nested loops as one loop. -/
theorem forList_nested (l : List α) (g : α → List β) (body : α → β → M σ Unit) :
    forList l (fun a => forList (g a) (body a))
      = forList (l.flatMap fun a => (g a).map fun b => (a, b)) (fun p => body p.1 p.2) := by
  induction l with
  | nil => rfl
  | cons a l ih => rw [forList_cons, List.flatMap_cons, forList_append, ih, forList_map]

/-- Invariant rule for loops whose body always succeeds. `P l s`: `l` is what is left to do. -/
theorem forList_inv {body : α → M σ Unit} (P : List α → σ → Prop)
    (h : ∀ a l s, P (a :: l) s → ∃ s', body a s = (.ok (), s') ∧ P l s') :
    ∀ l s, P l s → ∃ s', forList l body s = (.ok (), s') ∧ P [] s' := by
  intro l
  induction l with
  | nil => intro s hs; exact ⟨s, rfl, hs⟩
  | cons a l ih =>
    intro s hs
    obtain ⟨s', h1, h2⟩ := h a l s hs
    obtain ⟨s'', h3, h4⟩ := ih s' h2
    exact ⟨s'', by rw [forList_cons, bind_ok h1, h3], h4⟩

end M

/-- The counters at the start of iteration `n` are `ctr q qstar n`; invariant rule for the slab
loop, including bodies that may raise. -/
theorem slabForM_rule {σ : Type} {q qstar N : ℕ} {body : Counters → ℕ → M σ Unit}
    (P : ℕ → σ → Prop) (E : PyErr → σ → Prop)
    (h : ∀ n s, n < N → P n s → match body (ctr q qstar n) n s with
      | (.ok (), s') => P (n + 1) s'
      | (.error e, s') => E e s') (s : σ) (h0 : P 0 s) :
    match slabForM q qstar N body s with
      | (.ok (), s') => P N s'
      | (.error e, s') => E e s' := by
  have key : ∀ k n : ℕ, ∀ s, n + k = N → P n s →
      match M.forAcc (List.range' n k) (ctr q qstar n) (fun c n => do
        body c n
        pure (c.next q qstar)) s with
      | (.ok _, s') => P N s'
      | (.error e, s') => E e s' := by
    intro k
    induction k with
    | zero => intro n s hn hs; simp [M.forAcc]; simpa using hn ▸ hs
    | succ k ih =>
      intro n s hn hs
      have hb := h n s (by omega) hs
      rw [List.range'_succ]
      simp only [M.forAcc]
      rcases hr : body (ctr q qstar n) n s with ⟨e | u, s'⟩
      · rw [hr] at hb
        have : (do body (ctr q qstar n) n; pure ((ctr q qstar n).next q qstar)) s = (.error e, s') :=
          M.bind_error hr
        rw [M.bind_error this]; exact hb
      · rw [hr] at hb
        have : (do body (ctr q qstar n) n; pure ((ctr q qstar n).next q qstar)) s
            = (.ok (ctr q qstar (n + 1)), s') := by
          rw [M.bind_ok hr]; simp [ctr, Counters.next]; ring_nf; trivial
        rw [M.bind_ok this]
        exact ih (n + 1) s' (by omega) hb
  have hk := key N 0 s (by omega) h0
  rw [← List.range_eq_range'] at hk
  have hi : ctr q qstar 0 = Counters.init := by simp [ctr, Counters.init]
  rw [hi] at hk
  unfold slabForM
  rw [M.bind_run]
  revert hk
  rcases M.forAcc (List.range N) Counters.init (fun c n => do
        body c n
        pure (c.next q qstar)) s with ⟨e | u, s'⟩ <;> exact id

/-- Rule for bodies that never raise. -/
theorem slabForM_ok {σ : Type} {q qstar N : ℕ} {body : Counters → ℕ → M σ Unit}
    (P : ℕ → σ → Prop)
    (h : ∀ n s, n < N → P n s → ∃ s', body (ctr q qstar n) n s = (.ok (), s') ∧ P (n + 1) s')
    (s : σ) (h0 : P 0 s) : ∃ s', slabForM q qstar N body s = (.ok (), s') ∧ P N s' := by
  have := slabForM_rule (q := q) (qstar := qstar) (N := N) (body := body) P (fun _ _ => False)
    (fun n s hn hs => by obtain ⟨s', h1, h2⟩ := h n s hn hs; rw [h1]; exact h2) s h0
  rcases hr : slabForM q qstar N body s with ⟨e | u, s'⟩
  · rw [hr] at this; exact this.elim
  · rw [hr] at this; exact ⟨s', rfl, this⟩

end Dxss
