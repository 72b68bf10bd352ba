import Mathlib.Algebra.BigOperators.Fin
import Mathlib.Data.Fintype.BigOperators
import Verif.Model.Rust

/-!
# Fine-grained interleavings

In `Verif.Model.Rust` the tasks of a parallel region run one after another, in an arbitrary order
(`Sched`).  Here a computation is a tree of parallel regions and bootstraps (`Proc`), and a step of
an execution (`Step`) is a step of *any* task of *any* region that is currently active, however
deeply nested: between two bootstraps of one task any number of bootstraps of the other tasks may
happen.  What a task computes between two bootstraps touches only its own slot and data that no
other task writes, and is not a step of its own.

A task that panics lets the region panic (rayon and crossbeam re-raise the panic of a task at the
end of the scope); whether the other tasks go on before that is left open.
-/

namespace Parm

/-- A computation whose parallel tasks can be interleaved -/
inductive Proc : Type → Type 1 where
  /-- finished, with a result -/
  | ret {α : Type} (a : α) : Proc α
  /-- finished, with a panic or an `Err` -/
  | fault {α : Type} (f : Fault) : Proc α
  /-- one programmable bootstrap, then the rest -/
  | pbs {α : Type} (k : Proc α) : Proc α
  /-- `n` tasks that run concurrently; `k` goes on with their results -/
  | fork {α β : Type} (n : Nat) (t : Fin n → Proc β) (k : (Fin n → β) → Proc α) : Proc α
  /-- two tasks with results of two types -/
  | both {α β γ : Type} (a : Proc β) (b : Proc γ) (k : β → γ → Proc α) : Proc α

namespace Proc

/-- do `p`, then `f` with its result -/
def bind {α β : Type} : Proc α → (α → Proc β) → Proc β
  | ret a, f => f a
  | fault e, _ => fault e
  | pbs k, f => pbs (k.bind f)
  | fork n t k, f => fork n t fun r => (k r).bind f
  | both a b k, f => both a b fun x y => (k x y).bind f

instance : Monad Proc where
  pure := ret
  bind := bind

/-- `.expect(..)` / `.unwrap()` on a `Result`, as `M.expect` -/
def expectFault : Fault → Fault
  | .err e => .panic (.expect e)
  | .panic p => .panic p

/-- `.expect(..)` on a `Result`: an `Err` becomes a panic. -/
def expect {α : Type} : Proc α → Proc α
  | ret a => ret a
  | fault f => fault (expectFault f)
  | pbs k => pbs k.expect
  | fork n t k => fork n t fun r => (k r).expect
  | both a b k => both a b fun x y => (k x y).expect

/-- One step of an execution; the number is 1 for a bootstrap and 0 otherwise. -/
inductive Step : {α : Type} → Proc α → Nat → Proc α → Prop where
  | pbs {α : Type} (k : Proc α) : Step (pbs k) 1 k
  /-- any task of a region may take the next step -/
  | task {α β : Type} {n : Nat} {t : Fin n → Proc β} {k : (Fin n → β) → Proc α} (i : Fin n) {j : Nat}
      {q : Proc β} : Step (t i) j q → Step (fork n t k) j (fork n (Function.update t i q) k)
  /-- the region ends when all its tasks have -/
  | join {α β : Type} {n : Nat} {r : Fin n → β} {k : (Fin n → β) → Proc α} :
      Step (fork n (fun i => ret (r i)) k) 0 (k r)
  /-- a failed task makes the region fail -/
  | abort {α β : Type} {n : Nat} {t : Fin n → Proc β} {k : (Fin n → β) → Proc α} (i : Fin n) {f : Fault} :
      t i = fault f → Step (fork n t k) 0 (fault f)
  | left {α β γ : Type} {a : Proc β} {b : Proc γ} {k : β → γ → Proc α} {j : Nat} {q : Proc β} :
      Step a j q → Step (both a b k) j (both q b k)
  | right {α β γ : Type} {a : Proc β} {b : Proc γ} {k : β → γ → Proc α} {j : Nat} {q : Proc γ} :
      Step b j q → Step (both a b k) j (both a q k)
  | join2 {α β γ : Type} {x : β} {y : γ} {k : β → γ → Proc α} : Step (both (ret x) (ret y) k) 0 (k x y)
  | abortL {α β γ : Type} {b : Proc γ} {k : β → γ → Proc α} {f : Fault} :
      Step (both (fault f) b k) 0 (fault f)
  | abortR {α β γ : Type} {a : Proc β} {k : β → γ → Proc α} {f : Fault} :
      Step (both a (fault f) k) 0 (fault f)

/-- An execution of `len` steps, `n` of which are bootstraps -/
inductive Exec : {α : Type} → Proc α → (len n : Nat) → Proc α → Prop where
  | refl {α : Type} (p : Proc α) : Exec p 0 0 p
  | step {α : Type} {p q r : Proc α} {j len n : Nat} : Step p j q → Exec q len n r → Exec p (len + 1) (j + n) r

/-- no step is possible -/
def Done {α : Type} (p : Proc α) : Prop := ∀ j q, ¬ Step p j q

/-! ### Evaluation, independent of the interleaving -/

/-- `p` returns `a` with `n` bootstraps -/
inductive Eval : {α : Type} → Proc α → α → Nat → Prop where
  | ret {α : Type} (a : α) : Eval (ret a) a 0
  | pbs {α : Type} {k : Proc α} {a : α} {n : Nat} : Eval k a n → Eval (pbs k) a (n + 1)
  | fork {α β : Type} {n : Nat} {t : Fin n → Proc β} {k : (Fin n → β) → Proc α} {r : Fin n → β}
      {c : Fin n → Nat} {a : α} {m : Nat} :
      (∀ i, Eval (t i) (r i) (c i)) → Eval (k r) a m → Eval (fork n t k) a ((∑ i, c i) + m)
  | both {α β γ : Type} {p : Proc β} {q : Proc γ} {k : β → γ → Proc α} {x : β} {y : γ} {c d m : Nat} {a : α} :
      Eval p x c → Eval q y d → Eval (k x y) a m → Eval (both p q k) a (c + d + m)

/-- `p` fails -/
inductive Bad : {α : Type} → Proc α → Prop where
  | fault {α : Type} (f : Fault) : Bad (fault (α := α) f)
  | pbs {α : Type} {k : Proc α} : Bad k → Bad (pbs k)
  | task {α β : Type} {n : Nat} {t : Fin n → Proc β} {k : (Fin n → β) → Proc α} (i : Fin n) :
      Bad (t i) → Bad (fork n t k)
  | after {α β : Type} {n : Nat} {t : Fin n → Proc β} {k : (Fin n → β) → Proc α} {r : Fin n → β} {c : Fin n → Nat} :
      (∀ i, Eval (t i) (r i) (c i)) → Bad (k r) → Bad (fork n t k)
  | left {α β γ : Type} {p : Proc β} {q : Proc γ} {k : β → γ → Proc α} : Bad p → Bad (both p q k)
  | right {α β γ : Type} {p : Proc β} {q : Proc γ} {k : β → γ → Proc α} : Bad q → Bad (both p q k)
  | after2 {α β γ : Type} {p : Proc β} {q : Proc γ} {k : β → γ → Proc α} {x : β} {y : γ} {c d : Nat} :
      Eval p x c → Eval q y d → Bad (k x y) → Bad (both p q k)

theorem eval_ret {α : Type} {a b : α} {n : Nat} (h : Eval (ret a) b n) : b = a ∧ n = 0 := by
  cases h; exact ⟨rfl, rfl⟩

/-- a step keeps the result and takes its bootstrap off the count -/
theorem Eval.step {α : Type} {p q : Proc α} {a : α} {n j : Nat} (h : Eval p a n) (s : Step p j q) :
    ∃ m, n = j + m ∧ Eval q a m := by
  induction s generalizing n with
  | pbs k =>
    cases h with
    | pbs h => exact ⟨_, by omega, h⟩
  | task i _ ih =>
    cases h with
    | @fork _ _ nn t k r c a m ht hk =>
      obtain ⟨m', hm, hq⟩ := ih (ht i)
      refine ⟨(∑ i', Function.update c i m' i') + m, ?_, Eval.fork (r := r) (c := Function.update c i m') ?_ hk⟩
      · have h1 := Finset.add_sum_erase Finset.univ c (Finset.mem_univ i)
        have h2 := Finset.add_sum_erase Finset.univ (Function.update c i m') (Finset.mem_univ i)
        have h3 : ∑ x ∈ Finset.univ.erase i, Function.update c i m' x = ∑ x ∈ Finset.univ.erase i, c x :=
          Finset.sum_congr rfl fun x hx => by
            rw [Function.update_of_ne (Finset.ne_of_mem_erase hx)]
        simp only [Function.update_self] at h2
        omega
      · intro i'
        by_cases e : i' = i
        · subst e; simpa using hq
        · simpa [Function.update_of_ne e] using ht i'
  | @join _ _ nn r' k =>
    cases h with
    | @fork _ _ _ _ _ r c a m ht hk =>
      have h1 : r = r' := funext fun i => (eval_ret (ht i)).1
      have h2 : ∑ i, c i = 0 := Finset.sum_eq_zero fun i _ => (eval_ret (ht i)).2
      subst h1
      exact ⟨m, by omega, hk⟩
  | abort i e =>
    cases h with
    | fork ht hk => have := ht i; rw [e] at this; cases this
  | left _ ih =>
    cases h with
    | both hp hq hk =>
      obtain ⟨m', hm, hp'⟩ := ih hp
      exact ⟨_, by omega, Eval.both hp' hq hk⟩
  | right _ ih =>
    cases h with
    | both hp hq hk =>
      obtain ⟨m', hm, hq'⟩ := ih hq
      exact ⟨_, by omega, Eval.both hp hq' hk⟩
  | join2 =>
    cases h with
    | both hp hq hk =>
      obtain ⟨rfl, rfl⟩ := eval_ret hp
      obtain ⟨rfl, rfl⟩ := eval_ret hq
      exact ⟨_, by omega, hk⟩
  | abortL => cases h with | both hp _ _ => cases hp
  | abortR => cases h with | both _ hq _ => cases hq

/-- the result and the number of bootstraps are determined -/
theorem Eval.unique {α : Type} {p : Proc α} {a : α} {n : Nat} (h : Eval p a n) :
    ∀ {b m}, Eval p b m → b = a ∧ m = n := by
  induction h with
  | ret => intro b m h; exact eval_ret h
  | pbs _ ih => intro b m h; cases h with | pbs h => obtain ⟨rfl, rfl⟩ := ih h; exact ⟨rfl, rfl⟩
  | @fork _ _ _ _ _ r c _ _ _ _ iht ihk =>
    intro b m h
    cases h with
    | @fork _ _ _ _ _ r' c' _ _ ht hk =>
      have h1 : r' = r := funext fun i => (iht i (ht i)).1
      have h2 : c' = c := funext fun i => (iht i (ht i)).2
      subst h1; subst h2
      obtain ⟨rfl, rfl⟩ := ihk hk
      exact ⟨rfl, rfl⟩
  | both _ _ _ ihp ihq ihk =>
    intro b m h
    cases h with
    | both hp hq hk =>
      obtain ⟨rfl, rfl⟩ := ihp hp
      obtain ⟨rfl, rfl⟩ := ihq hq
      obtain ⟨rfl, rfl⟩ := ihk hk
      exact ⟨rfl, rfl⟩

/-- a failing computation does not return -/
theorem Bad.not_eval {α : Type} {p : Proc α} (h : Bad p) : ∀ {a n}, ¬ Eval p a n := by
  induction h with
  | fault f => intro a n h; cases h
  | pbs _ ih => intro a n h; cases h with | pbs h => exact ih h
  | task i _ ih => intro a n h; cases h with | fork ht _ => exact ih (ht i)
  | @after _ _ _ _ _ r c ht _ ih =>
    intro a n h
    cases h with
    | @fork _ _ _ _ _ r' c' _ _ ht' hk =>
      have h1 : r' = r := funext fun i => ((ht i).unique (ht' i)).1
      subst h1; exact ih hk
  | left _ ih => intro a n h; cases h with | both hp _ _ => exact ih hp
  | right _ ih => intro a n h; cases h with | both _ hq _ => exact ih hq
  | after2 hp hq _ ih =>
    intro a n h
    cases h with
    | both hp' hq' hk =>
      obtain ⟨rfl, _⟩ := hp.unique hp'
      obtain ⟨rfl, _⟩ := hq.unique hq'
      exact ih hk

/-- every computation either returns or fails -/
theorem eval_or_bad {α : Type} (p : Proc α) : (∃ a n, Eval p a n) ∨ Bad p := by
  induction p with
  | ret a => exact Or.inl ⟨_, _, .ret a⟩
  | fault f => exact Or.inr (.fault f)
  | pbs k ih =>
    rcases ih with ⟨a, n, h⟩ | h
    · exact Or.inl ⟨_, _, .pbs h⟩
    · exact Or.inr (.pbs h)
  | fork n t k iht ihk =>
    by_cases hb : ∃ i, Bad (t i)
    · obtain ⟨i, h⟩ := hb; exact Or.inr (.task i h)
    · have ht : ∀ i, ∃ a c, Eval (t i) a c := fun i => (iht i).resolve_right fun h => hb ⟨i, h⟩
      choose r c ht using ht
      rcases ihk r with ⟨a, m, h⟩ | h
      · exact Or.inl ⟨_, _, .fork ht h⟩
      · exact Or.inr (.after ht h)
  | both p q k ihp ihq ihk =>
    rcases ihp with ⟨x, c, hp⟩ | hp
    · rcases ihq with ⟨y, d, hq⟩ | hq
      · rcases ihk x y with ⟨a, m, h⟩ | h
        · exact Or.inl ⟨_, _, .both hp hq h⟩
        · exact Or.inr (.after2 hp hq h)
      · exact Or.inr (.right hq)
    · exact Or.inr (.left hp)

theorem Eval.to_not_bad {α : Type} {p : Proc α} {a : α} {n : Nat} (h : Eval p a n) : ¬ Bad p :=
  fun hb => hb.not_eval h

/-- a step backwards keeps a result -/
theorem Eval.unstep {α : Type} {p q : Proc α} {j : Nat} (s : Step p j q) :
    ∀ {a m}, Eval q a m → Eval p a (j + m) := by
  induction s with
  | pbs k => intro a m h; rw [Nat.add_comm]; exact .pbs h
  | @task _ _ n t k i j q _ ih =>
    intro a m h
    cases h with
    | @fork _ _ _ _ _ r c _ m ht hk =>
      have hi := ht i
      simp only [Function.update_self] at hi
      have h' : Eval (Proc.fork n t k) a ((∑ i', Function.update c i (j + c i) i') + m) := by
        refine Eval.fork (r := r) (fun i' => ?_) hk
        by_cases e : i' = i
        · subst e; simpa using ih hi
        · have := ht i'; simpa [Function.update_of_ne e] using this
      have h1 := Finset.add_sum_erase Finset.univ c (Finset.mem_univ i)
      have h2 := Finset.add_sum_erase Finset.univ (Function.update c i (j + c i)) (Finset.mem_univ i)
      have h3 : ∑ x ∈ Finset.univ.erase i, Function.update c i (j + c i) x = ∑ x ∈ Finset.univ.erase i, c x :=
        Finset.sum_congr rfl fun x hx => by
          rw [Function.update_of_ne (Finset.ne_of_mem_erase hx)]
      simp only [Function.update_self] at h2
      have : (∑ i', Function.update c i (j + c i) i') + m = j + ((∑ i, c i) + m) := by omega
      rw [this] at h'
      exact h'
  | join =>
    intro a m h
    simpa using Eval.fork (c := fun _ => 0) (fun i => Eval.ret _) h
  | abort i e => intro a m h; cases h
  | left _ ih =>
    intro a m h
    cases h with
    | both hp hq hk =>
      have := Eval.both (ih hp) hq hk
      simpa [Nat.add_assoc] using this
  | @right _ _ _ _ _ _ j _ _ ih =>
    intro a m h
    cases h with
    | @both _ _ _ _ _ _ _ _ c d m _ hp hq hk =>
      have := Eval.both hp (ih hq) hk
      have e : c + (j + d) + m = j + (c + d + m) := by omega
      rwa [e] at this
  | join2 =>
    intro a m h
    simpa using Eval.both (.ret _) (.ret _) h
  | abortL => intro a m h; cases h
  | abortR => intro a m h; cases h

/-- a step keeps failure -/
theorem Bad.step {α : Type} {p q : Proc α} {j : Nat} (h : Bad p) (s : Step p j q) : Bad q := by
  rcases eval_or_bad q with ⟨a, m, hq⟩ | hq
  · exact absurd (Eval.unstep s hq) h.not_eval
  · exact hq

/-- an execution stops only with a result or a failure -/
theorem done_iff {α : Type} (p : Proc α) : Done p ↔ (∃ a, p = ret a) ∨ ∃ f, p = fault f := by
  constructor
  · induction p with
    | ret a => intro _; exact Or.inl ⟨a, rfl⟩
    | fault f => intro _; exact Or.inr ⟨f, rfl⟩
    | pbs k _ => intro h; exact absurd (.pbs k) (h 1 k)
    | fork n t k iht _ =>
      intro h
      have hd : ∀ i, Done (t i) := fun i j q s => h _ _ (.task i s)
      have hr : ∀ i, ∃ a, t i = ret a := fun i => by
        rcases iht i (hd i) with h' | ⟨f, e⟩
        · exact h'
        · exact absurd (.abort i e) (h _ _)
      choose r hr using hr
      obtain rfl : t = fun i => ret (r i) := funext hr
      exact absurd .join (h _ _)
    | both p q k ihp ihq _ =>
      intro h
      rcases ihp fun j p' s => h _ _ (.left s) with ⟨x, rfl⟩ | ⟨f, rfl⟩
      · rcases ihq fun j q' s => h _ _ (.right s) with ⟨y, rfl⟩ | ⟨f, rfl⟩
        · exact absurd .join2 (h _ _)
        · exact absurd .abortR (h _ _)
      · exact absurd .abortL (h _ _)
  · rintro (⟨a, rfl⟩ | ⟨f, rfl⟩) j q s <;> cases s

/-! ### Executions are finite -/

/-- every execution of `p` has at most `c` steps -/
inductive Bound : {α : Type} → Proc α → Nat → Prop where
  | ret {α : Type} (a : α) (c : Nat) : Bound (ret a) c
  | fault {α : Type} (f : Fault) (c : Nat) : Bound (fault (α := α) f) c
  | pbs {α : Type} {k : Proc α} {c : Nat} : Bound k c → Bound (pbs k) (c + 1)
  | fork {α β : Type} {n : Nat} {t : Fin n → Proc β} {k : (Fin n → β) → Proc α} {c : Fin n → Nat} {d : Nat} :
      (∀ i, Bound (t i) (c i)) → (∀ (r : Fin n → β) (m : Fin n → Nat), (∀ i, Eval (t i) (r i) (m i)) → Bound (k r) d) →
      Bound (fork n t k) ((∑ i, c i) + d + 1)
  | both {α β γ : Type} {p : Proc β} {q : Proc γ} {k : β → γ → Proc α} {c d m : Nat} :
      Bound p c → Bound q d → (∀ x y i j, Eval p x i → Eval q y j → Bound (k x y) m) →
      Bound (both p q k) (c + d + m + 1)

theorem exists_bound {α : Type} (p : Proc α) : ∃ c, Bound p c := by
  induction p with
  | ret a => exact ⟨0, .ret a 0⟩
  | fault f => exact ⟨0, .fault f 0⟩
  | pbs k ih => obtain ⟨c, h⟩ := ih; exact ⟨_, .pbs h⟩
  | fork n t k iht ihk =>
    choose c hc using iht
    by_cases he : ∃ (r : Fin n → _) (m : Fin n → Nat), ∀ i, Eval (t i) (r i) (m i)
    · obtain ⟨r, m, he⟩ := he
      obtain ⟨d, hd⟩ := ihk r
      refine ⟨_, .fork (d := d) hc fun r' m' h' => ?_⟩
      have : r' = r := funext fun i => ((he i).unique (h' i)).1
      subst this; exact hd
    · exact ⟨_, .fork (d := 0) hc fun r m h => absurd ⟨r, m, h⟩ he⟩
  | both p q k ihp ihq ihk =>
    obtain ⟨c, hc⟩ := ihp
    obtain ⟨d, hd⟩ := ihq
    by_cases he : ∃ x y i j, Eval p x i ∧ Eval q y j
    · obtain ⟨x, y, i, j, h1, h2⟩ := he
      obtain ⟨m, hm⟩ := ihk x y
      refine ⟨_, .both (m := m) hc hd fun x' y' i' j' h1' h2' => ?_⟩
      obtain ⟨rfl, _⟩ := h1.unique h1'
      obtain ⟨rfl, _⟩ := h2.unique h2'
      exact hm
    · exact ⟨_, .both (m := 0) hc hd fun x y i j h1 h2 => absurd ⟨x, y, i, j, h1, h2⟩ he⟩

/-- a step decreases the bound -/
theorem Bound.step {α : Type} {p q : Proc α} {c j : Nat} (h : Bound p c) (s : Step p j q) :
    ∃ d, d < c ∧ Bound q d := by
  induction s generalizing c with
  | pbs k => cases h with | pbs h => exact ⟨_, Nat.lt_succ_self _, h⟩
  | @task _ _ n t k i j q s ih =>
    cases h with
    | @fork _ _ _ _ _ c d ht hk =>
      obtain ⟨m', hm, hq⟩ := ih (ht i)
      refine ⟨(∑ i', Function.update c i m' i') + d + 1, ?_, Bound.fork (c := Function.update c i m') (d := d) ?_ ?_⟩
      · have h1 := Finset.add_sum_erase Finset.univ c (Finset.mem_univ i)
        have h2 := Finset.add_sum_erase Finset.univ (Function.update c i m') (Finset.mem_univ i)
        have h3 : ∑ x ∈ Finset.univ.erase i, Function.update c i m' x = ∑ x ∈ Finset.univ.erase i, c x :=
          Finset.sum_congr rfl fun x hx => by
            rw [Function.update_of_ne (Finset.ne_of_mem_erase hx)]
        simp only [Function.update_self] at h2
        omega
      · intro i'
        by_cases e : i' = i
        · subst e; simpa using hq
        · simpa [Function.update_of_ne e] using ht i'
      · intro r m he
        refine hk r (Function.update m i (j + m i)) fun i' => ?_
        by_cases e : i' = i
        · subst e
          have := he i'
          simp only [Function.update_self] at this ⊢
          exact Eval.unstep s this
        · have := he i'; simpa [Function.update_of_ne e] using this
  | @join _ _ n r k =>
    cases h with
    | @fork _ _ _ _ _ c d ht hk => exact ⟨d, by omega, hk r (fun _ => 0) fun i => .ret _⟩
  | abort i e => cases h with | fork ht hk => exact ⟨0, by omega, .fault _ _⟩
  | left s ih =>
    cases h with
    | both hp hq hk =>
      obtain ⟨d, hd, hp'⟩ := ih hp
      exact ⟨_, by omega, .both hp' hq fun x y i j h1 h2 => hk x y _ j (Eval.unstep s h1) h2⟩
  | right s ih =>
    cases h with
    | both hp hq hk =>
      obtain ⟨d, hd, hq'⟩ := ih hq
      exact ⟨_, by omega, .both hp hq' fun x y i j h1 h2 => hk x y i _ h1 (Eval.unstep s h2)⟩
  | join2 => cases h with | both hp hq hk => exact ⟨_, by omega, hk _ _ 0 0 (.ret _) (.ret _)⟩
  | abortL => cases h with | both _ _ _ => exact ⟨0, by omega, .fault _ _⟩
  | abortR => cases h with | both _ _ _ => exact ⟨0, by omega, .fault _ _⟩

theorem Bound.exec {α : Type} {p q : Proc α} {len n : Nat} (e : Exec p len n q) :
    ∀ {c}, Bound p c → len ≤ c := by
  induction e with
  | refl => intro c _; omega
  | step s _ ih =>
    intro c h
    obtain ⟨d, hd, h'⟩ := h.step s
    have := ih h'
    omega

theorem Eval.exec {α : Type} {p q : Proc α} {len j : Nat} (e : Exec p len j q) :
    ∀ {a n}, Eval p a n → ∃ m, n = j + m ∧ Eval q a m := by
  induction e with
  | refl => intro a n h; exact ⟨n, by omega, h⟩
  | step s _ ih =>
    intro a n h
    obtain ⟨m, hm, h'⟩ := h.step s
    obtain ⟨m', hm', h''⟩ := ih h'
    exact ⟨m', by omega, h''⟩

theorem Bad.exec {α : Type} {p q : Proc α} {len j : Nat} (e : Exec p len j q) : Bad p → Bad q := by
  induction e with
  | refl => exact id
  | step s _ ih => exact fun h => ih (h.step s)

/-! ### What all executions have in common -/

/-- Every execution of `p` ends with the result `a`, after exactly `n` bootstraps: there is a bound on
the number of steps, an execution that cannot go on has the result, and every execution can be
continued until it has it. -/
structure AlwaysReturns {α : Type} (p : Proc α) (a : α) (n : Nat) : Prop where
  finite : ∃ c, ∀ len j q, Exec p len j q → len ≤ c
  ends : ∀ len j q, Exec p len j q → Done q → q = ret a ∧ j = n
  continues : ∀ len j q, Exec p len j q → ∃ len' j', Exec q len' j' (ret a) ∧ j + j' = n

/-- Every execution of `p` ends, with a failure. -/
structure AlwaysFaults {α : Type} (p : Proc α) : Prop where
  finite : ∃ c, ∀ len j q, Exec p len j q → len ≤ c
  ends : ∀ len j q, Exec p len j q → Done q → ∃ f, q = fault f

theorem finite_exec {α : Type} (p : Proc α) : ∃ c, ∀ len j q, Exec p len j q → len ≤ c := by
  obtain ⟨c, hc⟩ := exists_bound p
  exact ⟨c, fun _ _ _ e => Bound.exec e hc⟩

/-- every execution can be continued to its end -/
theorem exists_complete {α : Type} (p : Proc α) : ∃ len j q, Exec p len j q ∧ Done q := by
  obtain ⟨c, hc⟩ := exists_bound p
  induction c using Nat.strongRecOn generalizing p with
  | _ c ih =>
    by_cases hd : Done p
    · exact ⟨0, 0, p, .refl p, hd⟩
    · simp only [Done, not_forall, not_not] at hd
      obtain ⟨j, q, s⟩ := hd
      obtain ⟨d, hlt, hq⟩ := hc.step s
      obtain ⟨len, j', r, e, hr⟩ := ih d hlt q hq
      exact ⟨_, _, r, .step s e, hr⟩

theorem Eval.ends {α : Type} {p : Proc α} {a : α} {n : Nat} (h : Eval p a n) {len j : Nat} {q : Proc α}
    (e : Exec p len j q) (d : Done q) : q = Proc.ret a ∧ j = n := by
  obtain ⟨m, hm, hq⟩ := Eval.exec e h
  rcases (done_iff q).1 d with ⟨b, rfl⟩ | ⟨f, rfl⟩
  · obtain ⟨rfl, rfl⟩ := eval_ret hq; exact ⟨rfl, by omega⟩
  · cases hq

theorem Eval.always {α : Type} {p : Proc α} {a : α} {n : Nat} (h : Eval p a n) : AlwaysReturns p a n := by
  refine ⟨finite_exec p, fun len j q e d => h.ends e d, fun len j q e => ?_⟩
  obtain ⟨m, hm, hq⟩ := Eval.exec e h
  obtain ⟨len', j', r, e', hd⟩ := exists_complete q
  obtain ⟨rfl, rfl⟩ := hq.ends e' hd
  exact ⟨_, _, e', hm.symm⟩

theorem Bad.always {α : Type} {p : Proc α} (h : Bad p) : AlwaysFaults p := by
  refine ⟨finite_exec p, fun len j q e d => ?_⟩
  rcases (done_iff q).1 d with ⟨b, rfl⟩ | h'
  · exact absurd (Bad.exec e h) fun hb => by cases hb
  · exact h'

end Proc
end Parm
