import Mathlib.Algebra.Order.BigOperators.Group.Finset
import Mathlib.Order.Lattice
import Mathlib.Data.Finset.Lattice.Fold
import Verif.Fine.Rel

/-!
# Time on a bounded number of workers

A bootstrap takes one unit of time on one worker; everything else takes no time.  In one unit of time
up to `w` waiting bootstraps are performed, of any tasks (`Par`).
-/

namespace Parm
namespace Proc

/-- `j` different waiting bootstraps are performed at the same time. -/
inductive Par : {α : Type} → Proc α → Nat → Proc α → Prop where
  | idle {α : Type} (p : Proc α) : Par p 0 p
  | pbs {α : Type} (k : Proc α) : Par (pbs k) 1 k
  | fork {α β : Type} {n : Nat} {t t' : Fin n → Proc β} {k : (Fin n → β) → Proc α} {c : Fin n → Nat} :
      (∀ i, Par (t i) (c i) (t' i)) → Par (fork n t k) (∑ i, c i) (fork n t' k)
  | both {α β γ : Type} {a a' : Proc β} {b b' : Proc γ} {k : β → γ → Proc α} {c d : Nat} :
      Par a c a' → Par b d b' → Par (both a b k) (c + d) (both a' b' k)

/-- number of bootstraps that could be performed right now -/
def ready : {α : Type} → Proc α → Nat
  | _, ret _ => 0
  | _, fault _ => 0
  | _, pbs _ => 1
  | _, fork _ t _ => ∑ i, ready (t i)
  | _, both a b _ => ready a + ready b

/-- Everything that takes no time has been done. -/
def Stable {α : Type} (p : Proc α) : Prop := ∀ q, ¬ Step p 0 q

/-- A schedule on `w` workers that takes `T` units of time; workers may be idle. -/
inductive Timed (w : Nat) : {α : Type} → Proc α → (T : Nat) → Proc α → Prop where
  | refl {α : Type} (p : Proc α) : Timed w p 0 p
  | silent {α : Type} {p q r : Proc α} {T : Nat} : Step p 0 q → Timed w q T r → Timed w p T r
  | round {α : Type} {p q r : Proc α} {j T : Nat} : j ≤ w → Par p j q → Timed w q T r → Timed w p (T + 1) r

/-- A schedule on `w` workers in which no worker is idle while a bootstrap is waiting. -/
inductive Greedy (w : Nat) : {α : Type} → Proc α → (T : Nat) → Proc α → Prop where
  | refl {α : Type} (p : Proc α) : Greedy w p 0 p
  | silent {α : Type} {p q r : Proc α} {T : Nat} : Step p 0 q → Greedy w q T r → Greedy w p T r
  | round {α : Type} {p q r : Proc α} {T : Nat} : Stable p → ¬ Done p → Par p (min w (ready p)) q → Greedy w q T r →
      Greedy w p (T + 1) r

/-- `p` returns `a`, and `d` bootstraps have to be performed one after the other: the length of the
critical path -/
inductive Span : {α : Type} → Proc α → α → Nat → Prop where
  | ret {α : Type} (a : α) : Span (ret a) a 0
  | pbs {α : Type} {k : Proc α} {a : α} {d : Nat} : Span k a d → Span (pbs k) a (d + 1)
  | fork {α β : Type} {n : Nat} {t : Fin n → Proc β} {k : (Fin n → β) → Proc α} {r : Fin n → β}
      {c : Fin n → Nat} {a : α} {m : Nat} :
      (∀ i, Span (t i) (r i) (c i)) → Span (k r) a m → Span (fork n t k) a (Finset.univ.sup c + m)
  | both {α β γ : Type} {p : Proc β} {q : Proc γ} {k : β → γ → Proc α} {x : β} {y : γ} {c d m : Nat} {a : α} :
      Span p x c → Span q y d → Span (k x y) a m → Span (both p q k) a (max c d + m)

theorem Span.eval {α : Type} {p : Proc α} {a : α} {d : Nat} (h : Span p a d) : ∃ n, Eval p a n := by
  induction h with
  | ret a => exact ⟨_, .ret a⟩
  | pbs _ ih => obtain ⟨n, h⟩ := ih; exact ⟨_, .pbs h⟩
  | fork _ _ iht ihk =>
    choose c hc using iht
    obtain ⟨m, hm⟩ := ihk
    exact ⟨_, .fork hc hm⟩
  | both _ _ _ ih1 ih2 ih3 =>
    obtain ⟨_, h1⟩ := ih1
    obtain ⟨_, h2⟩ := ih2
    obtain ⟨_, h3⟩ := ih3
    exact ⟨_, .both h1 h2 h3⟩

theorem Eval.span {α : Type} {p : Proc α} {a : α} {n : Nat} (h : Eval p a n) : ∃ d, d ≤ n ∧ Span p a d := by
  induction h with
  | ret a => exact ⟨_, le_rfl, .ret a⟩
  | pbs _ ih => obtain ⟨d, hd, h⟩ := ih; exact ⟨_, by omega, .pbs h⟩
  | @fork _ _ _ _ _ _ cc _ _ _ _ iht ihk =>
    choose c hle hc using iht
    obtain ⟨m, hm, hk⟩ := ihk
    refine ⟨_, ?_, .fork hc hk⟩
    have : Finset.univ.sup c ≤ ∑ i, cc i := by
      refine Finset.sup_le fun i _ => (hle i).trans ?_
      exact Finset.single_le_sum (f := cc) (fun _ _ => Nat.zero_le _) (Finset.mem_univ i)
    omega
  | both _ _ _ ih1 ih2 ih3 =>
    obtain ⟨_, l1, h1⟩ := ih1
    obtain ⟨_, l2, h2⟩ := ih2
    obtain ⟨_, l3, h3⟩ := ih3
    exact ⟨_, by omega, .both h1 h2 h3⟩

theorem span_ret {α : Type} {a b : α} {n : Nat} (h : Span (ret a) b n) : b = a ∧ n = 0 := by
  cases h; exact ⟨rfl, rfl⟩

theorem Span.unique {α : Type} {p : Proc α} {a : α} {n : Nat} (h : Span p a n) :
    ∀ {b m}, Span p b m → b = a ∧ m = n := by
  induction h with
  | ret => intro b m h; exact span_ret h
  | pbs _ ih => intro b m h; cases h with | pbs h => obtain ⟨rfl, rfl⟩ := ih h; exact ⟨rfl, rfl⟩
  | @fork _ _ _ _ _ r c _ _ _ _ iht ihk =>
    intro b m h
    cases h with
    | @fork _ _ _ _ _ r' c' _ _ ht hk =>
      have h1 : r' = r := funext fun i => (iht i (ht i)).1
      have h2 : c' = c := funext fun i => (iht i (ht i)).2
      subst h1; subst h2
      obtain ⟨rfl, rfl⟩ := ihk hk
      exact ⟨rfl, rfl⟩
  | both _ _ _ ihp ihq ihk =>
    intro b m h
    cases h with
    | both hp hq hk =>
      obtain ⟨rfl, rfl⟩ := ihp hp
      obtain ⟨rfl, rfl⟩ := ihq hq
      obtain ⟨rfl, rfl⟩ := ihk hk
      exact ⟨rfl, rfl⟩

/-- what takes no time does not change the critical path -/
theorem Span.silent {α : Type} {p q : Proc α} {j : Nat} (s : Step p j q) : ∀ {a d}, j = 0 → Span p a d → Span q a d := by
  induction s with
  | pbs k => intro a d e; omega
  | @task _ _ n t k i j q _ ih =>
    intro a d e h
    cases h with
    | @fork _ _ _ _ _ r c a m ht hk =>
      refine Span.fork (fun i' => ?_) hk
      by_cases e' : i' = i
      · subst e'; simpa using ih e (ht i')
      · simpa [Function.update_of_ne e'] using ht i'
  | @join _ _ nn r' k =>
    intro a d e h
    cases h with
    | @fork _ _ _ _ _ r c a m ht hk =>
      have h1 : r = r' := funext fun i => (span_ret (ht i)).1
      have h2 : Finset.univ.sup c = 0 := by
        rw [← Nat.le_zero]
        exact Finset.sup_le fun i _ => (span_ret (ht i)).2.le
      subst h1
      rw [h2, Nat.zero_add]
      exact hk
  | abort i e =>
    intro a d _ h
    cases h with
    | fork ht hk => have := ht i; rw [e] at this; cases this
  | left _ ih =>
    intro a d e h
    cases h with
    | both hp hq hk => exact Span.both (ih e hp) hq hk
  | right _ ih =>
    intro a d e h
    cases h with
    | both hp hq hk => exact Span.both hp (ih e hq) hk
  | join2 =>
    intro a d e h
    cases h with
    | both hp hq hk =>
      obtain ⟨rfl, rfl⟩ := span_ret hp
      obtain ⟨rfl, rfl⟩ := span_ret hq
      simpa using hk
  | abortL => intro a d _ h; cases h with | both hp _ _ => cases hp
  | abortR => intro a d _ h; cases h with | both _ hq _ => cases hq

/-- simultaneous bootstraps come off the count -/
theorem Eval.par {α : Type} {p q : Proc α} {j : Nat} (s : Par p j q) : ∀ {a n}, Eval p a n → ∃ m, n = j + m ∧ Eval q a m := by
  induction s with
  | idle => intro a n h; exact ⟨n, by omega, h⟩
  | pbs k => intro a n h; cases h with | pbs h => exact ⟨_, by omega, h⟩
  | fork _ ih =>
    intro a n h
    cases h with
    | @fork _ _ _ _ _ r c' _ m ht hk =>
      have := fun i => ih i (ht i)
      choose c'' h1 h2 using this
      refine ⟨_, ?_, Eval.fork h2 hk⟩
      have : ∑ i, c' i = _ := (Finset.sum_congr rfl fun i _ => h1 i).trans Finset.sum_add_distrib
      omega
  | both _ _ ih1 ih2 =>
    intro a n h
    cases h with
    | both hp hq hk =>
      obtain ⟨_, e1, h1⟩ := ih1 hp
      obtain ⟨_, e2, h2⟩ := ih2 hq
      exact ⟨_, by omega, Eval.both h1 h2 hk⟩

/-- one unit of time takes at most one off the critical path -/
theorem Span.par {α : Type} {p q : Proc α} {j : Nat} (s : Par p j q) :
    ∀ {a d}, Span p a d → ∃ d', d' ≤ d ∧ d ≤ d' + 1 ∧ Span q a d' := by
  induction s with
  | idle => intro a d h; exact ⟨d, le_rfl, by omega, h⟩
  | pbs k => intro a d h; cases h with | pbs h => exact ⟨_, by omega, le_rfl, h⟩
  | fork _ ih =>
    intro a d h
    cases h with
    | @fork _ _ _ _ _ r c' _ m ht hk =>
      have := fun i => ih i (ht i)
      choose c'' h1 h2 h3 using this
      refine ⟨Finset.univ.sup c'' + m, ?_, ?_, Span.fork h3 hk⟩
      · have : Finset.univ.sup c'' ≤ Finset.univ.sup c' :=
          Finset.sup_le fun i _ => (h1 i).trans (Finset.le_sup (f := c') (Finset.mem_univ i))
        omega
      · have : Finset.univ.sup c' ≤ Finset.univ.sup c'' + 1 :=
          Finset.sup_le fun i _ => (h2 i).trans
            (Nat.add_le_add_right (Finset.le_sup (f := c'') (Finset.mem_univ i)) 1)
        omega
  | both _ _ ih1 ih2 =>
    intro a d h
    cases h with
    | both hp hq hk =>
      obtain ⟨_, a1, b1, h1⟩ := ih1 hp
      obtain ⟨_, a2, b2, h2⟩ := ih2 hq
      exact ⟨_, by omega, by omega, Span.both h1 h2 hk⟩

theorem par_ret {α : Type} {b : α} {j : Nat} {q : Proc α} (s : Par (ret b) j q) : q = ret b := by
  cases s; rfl

theorem Par.le_ready {α : Type} {p q : Proc α} {j : Nat} (s : Par p j q) : j ≤ ready p := by
  induction s with
  | idle => omega
  | pbs => exact le_rfl
  | fork _ ih => exact Finset.sum_le_sum fun i _ => ih i
  | both _ _ ih1 ih2 => exact Nat.add_le_add ih1 ih2

theorem Stable.task {α β : Type} {n : Nat} {t : Fin n → Proc β} {k : (Fin n → β) → Proc α}
    (h : Stable (fork n t k)) (i : Fin n) : Stable (t i) := fun _ s => h _ (.task i s)

/-- Performing everything that is waiting takes exactly one off the critical path, and something is
waiting unless the computation is finished. -/
theorem full_round {α : Type} {p : Proc α} : ∀ {a d}, Span p a d → Stable p → ¬ (∃ b, p = ret b) →
    0 < ready p ∧ 0 < d ∧ ∀ {j q}, Par p j q → j = ready p → Span q a (d - 1) := by
  induction p with
  | ret b => intro a d _ _ hn; exact absurd ⟨b, rfl⟩ hn
  | fault f => intro a d h; cases h
  | pbs k _ =>
    intro a d h _ _
    cases h with
    | pbs h =>
      refine ⟨Nat.one_pos, by omega, fun {j q} s e => ?_⟩
      cases s with
      | idle => simp [ready] at e
      | pbs => exact h
  | fork n t k iht _ =>
    intro a d h hs _
    cases h with
    | @fork _ _ _ _ _ r c _ m ht hk =>
      -- a task that is not finished
      have hex : ∃ i, ¬ ∃ b, t i = Proc.ret b := by
        by_contra hc
        push Not at hc
        choose r' hr using hc
        have : t = fun i => Proc.ret (r' i) := funext hr
        subst this
        exact hs _ .join
      obtain ⟨i0, hi0⟩ := hex
      obtain ⟨g1, g2, -⟩ := iht i0 (ht i0) (hs.task i0) hi0
      have hle : c i0 ≤ Finset.univ.sup c := Finset.le_sup (Finset.mem_univ i0)
      refine ⟨?_, by omega, fun {j q} s e => ?_⟩
      · exact lt_of_lt_of_le g1 (Finset.single_le_sum (f := fun i => ready (t i)) (fun _ _ => Nat.zero_le _) (Finset.mem_univ i0))
      · cases s with
        | idle =>
          exfalso
          have : ready (t i0) ≤ ready (Proc.fork n t k) :=
            Finset.single_le_sum (f := fun i => ready (t i)) (fun _ _ => Nat.zero_le _) (Finset.mem_univ i0)
          omega
        | @fork _ _ _ _ t' _ cc hp =>
          have hall : ∀ i, cc i = ready (t i) := by
            intro i
            by_contra hne
            have h1 : cc i < ready (t i) := lt_of_le_of_ne (hp i).le_ready hne
            have : ∑ i, cc i < ∑ i, ready (t i) :=
              Finset.sum_lt_sum (fun i _ => (hp i).le_ready) ⟨i, Finset.mem_univ i, h1⟩
            simp only [ready] at e
            omega
          have hstep : ∀ i, Span (t' i) (r i) (c i - 1) := by
            intro i
            by_cases hb : ∃ b, t i = Proc.ret b
            · obtain ⟨b, hb⟩ := hb
              have hi := ht i
              have hpi := hp i
              rw [hb] at hi hpi
              obtain ⟨e1, e2⟩ := span_ret hi
              have : t' i = Proc.ret b := par_ret hpi
              rw [this, e1, e2]
              exact .ret b
            · exact (iht i (ht i) (hs.task i) hb).2.2 (hp i) (hall i)
          have := Span.fork hstep hk
          have hsup : Finset.univ.sup (fun i => c i - 1) = Finset.univ.sup c - 1 := by
            apply le_antisymm
            · exact Finset.sup_le fun i _ => Nat.sub_le_sub_right (Finset.le_sup (f := c) (Finset.mem_univ i)) 1
            · rw [Nat.sub_le_iff_le_add]
              refine Finset.sup_le fun i _ => ?_
              have : c i - 1 ≤ _ := Finset.le_sup (f := fun i => c i - 1) (Finset.mem_univ i)
              omega
          rw [hsup] at this
          rw [show Finset.univ.sup c + m - 1 = Finset.univ.sup c - 1 + m by omega]
          exact this
  | both p q k ihp ihq _ =>
    intro a d h hs _
    cases h with
    | @both _ _ _ _ _ _ x y c d m _ hp hq hk =>
      have sp : Stable p := fun _ s => hs _ (.left s)
      have sq : Stable q := fun _ s => hs _ (.right s)
      by_cases hbp : ∃ b, p = Proc.ret b
      · obtain ⟨b, rfl⟩ := hbp
        have hbq : ¬ ∃ b, q = Proc.ret b := by
          rintro ⟨b', rfl⟩
          exact hs _ .join2
        obtain ⟨g1, g2, g3⟩ := ihq hq sq hbq
        obtain ⟨rfl, rfl⟩ := span_ret hp
        refine ⟨by simp only [ready]; omega, by omega, fun {j r} s e => ?_⟩
        simp only [ready] at e
        cases s with
        | idle => omega
        | both s1 s2 =>
          have e1 := s1.le_ready
          have e2 := s2.le_ready
          simp only [ready] at e1
          have hq' := g3 s2 (by omega)
          have := Span.both ((par_ret s1).symm ▸ hp) hq' hk
          rw [show max 0 d + m - 1 = max 0 (d - 1) + m by omega]
          exact this
      · obtain ⟨g1, g2, g3⟩ := ihp hp sp hbp
        by_cases hbq : ∃ b, q = Proc.ret b
        · obtain ⟨b, rfl⟩ := hbq
          obtain ⟨rfl, rfl⟩ := span_ret hq
          refine ⟨by simp only [ready]; omega, by omega, fun {j r} s e => ?_⟩
          simp only [ready] at e
          cases s with
          | idle => omega
          | both s1 s2 =>
            have e1 := s1.le_ready
            have e2 := s2.le_ready
            simp only [ready] at e2
            have hp' := g3 s1 (by omega)
            have := Span.both hp' ((par_ret s2).symm ▸ hq) hk
            rw [show max c 0 + m - 1 = max (c - 1) 0 + m by omega]
            exact this
        · obtain ⟨g1', g2', g3'⟩ := ihq hq sq hbq
          refine ⟨by simp only [ready]; omega, by omega, fun {j r} s e => ?_⟩
          simp only [ready] at e
          cases s with
          | idle => omega
          | both s1 s2 =>
            have e1 := s1.le_ready
            have e2 := s2.le_ready
            have := Span.both (g3 s1 (by omega)) (g3' s2 (by omega)) hk
            rw [show max c d + m - 1 = max (c - 1) (d - 1) + m by omega]
            exact this

/-- No schedule is faster than the critical path, or than all workers busy all the time. -/
theorem Timed.lower {w : Nat} {α : Type} {p q : Proc α} {T : Nat} (h : Timed w p T q) :
    ∀ {a n d n' d'}, Eval p a n → Span p a d → Eval q a n' → Span q a d' → d ≤ T + d' ∧ n ≤ w * T + n' := by
  induction h with
  | refl =>
    intro a n d n' d' h1 h2 h3 h4
    obtain ⟨_, rfl⟩ := h1.unique h3
    obtain ⟨_, rfl⟩ := h2.unique h4
    omega
  | silent s _ ih =>
    intro a n d n' d' h1 h2 h3 h4
    obtain ⟨m, hm, h1'⟩ := h1.step s
    obtain rfl : n = m := by omega
    exact ih h1' (Span.silent s rfl h2) h3 h4
  | @round _ _ _ j T hj s _ ih =>
    intro a n d n' d' h1 h2 h3 h4
    obtain ⟨m, hm, h1'⟩ := h1.par s
    obtain ⟨d1, _, hd1, h2'⟩ := h2.par s
    obtain ⟨g1, g2⟩ := ih h1' h2' h3 h4
    refine ⟨by omega, ?_⟩
    rw [Nat.mul_add]
    omega

/-- A schedule without unnecessarily idle workers is at most as slow as Brent's bound. -/
theorem Greedy.upper {w : Nat} (hw : 1 ≤ w) {α : Type} {p q : Proc α} {T : Nat} (h : Greedy w p T q) :
    ∀ {a n d}, Eval p a n → Span p a d → w * T ≤ n + (w - 1) * d := by
  induction h with
  | refl => intro a n d _ _; omega
  | silent s _ ih =>
    intro a n d h1 h2
    obtain ⟨m, hm, h1'⟩ := h1.step s
    obtain rfl : n = m := by omega
    exact ih h1' (Span.silent s rfl h2)
  | @round p _ _ T hs hd s _ ih =>
    intro a n d h1 h2
    obtain ⟨m, hm, h1'⟩ := h1.par s
    obtain ⟨d1, hd1, _, h2'⟩ := h2.par s
    have hnr : ¬ ∃ b, p = ret b := fun h => hd ((done_iff p).2 (Or.inl h))
    obtain ⟨g1, g2, g3⟩ := full_round h2 hs hnr
    by_cases hwr : w ≤ ready p
    · have := ih h1' h2'
      rw [Nat.min_eq_left hwr] at hm
      have hmul : (w - 1) * d1 ≤ (w - 1) * d := Nat.mul_le_mul_left _ hd1
      rw [Nat.mul_add]
      omega
    · rw [Nat.min_eq_right (by omega)] at hm s
      have := ih h1' (g3 s rfl)
      have hmul : (w - 1) * d = (w - 1) * (d - 1) + (w - 1) := by
        conv_lhs => rw [show d = d - 1 + 1 by omega]
        rw [Nat.mul_add, Nat.mul_one]
      rw [Nat.mul_add]
      omega

/-! ### Enough workers -/

/-- at no time more than `w` bootstraps of `p` are waiting -/
inductive Width : {α : Type} → Proc α → Nat → Prop where
  | ret {α : Type} (a : α) (w : Nat) : Width (ret a) w
  | fault {α : Type} (f : Fault) (w : Nat) : Width (fault (α := α) f) w
  | pbs {α : Type} {k : Proc α} {w : Nat} : 1 ≤ w → Width k w → Width (pbs k) w
  | fork {α β : Type} {n : Nat} {t : Fin n → Proc β} {k : (Fin n → β) → Proc α} {c : Fin n → Nat} {w : Nat} :
      (∀ i, Width (t i) (c i)) → ∑ i, c i ≤ w → (∀ r, Width (k r) w) → Width (fork n t k) w
  | both {α β γ : Type} {p : Proc β} {q : Proc γ} {k : β → γ → Proc α} {c d w : Nat} :
      Width p c → Width q d → c + d ≤ w → (∀ x y, Width (k x y) w) → Width (both p q k) w

theorem Width.ready {α : Type} {p : Proc α} {w : Nat} (h : Width p w) : ready p ≤ w := by
  induction h with
  | ret => exact Nat.zero_le _
  | fault => exact Nat.zero_le _
  | pbs h _ _ => exact h
  | fork _ hs _ ih _ => exact (Finset.sum_le_sum fun i _ => ih i).trans hs
  | both _ _ hs _ ih1 ih2 _ => exact (Nat.add_le_add ih1 ih2).trans hs

theorem Width.silent {α : Type} {p q : Proc α} {j : Nat} (s : Step p j q) : ∀ {w}, Width p w → Width q w := by
  induction s with
  | pbs k => intro w h; cases h with | pbs _ h => exact h
  | @task _ _ n t k i j q _ ih =>
    intro w h
    cases h with
    | fork ht hs hk =>
      refine Width.fork (fun i' => ?_) hs hk
      by_cases e' : i' = i
      · subst e'; simpa using ih (ht i')
      · simpa [Function.update_of_ne e'] using ht i'
  | join => intro w h; cases h with | fork _ _ hk => exact hk _
  | abort => intro w _; exact .fault _ _
  | left _ ih => intro w h; cases h with | both h1 h2 hs hk => exact .both (ih h1) h2 hs hk
  | right _ ih => intro w h; cases h with | both h1 h2 hs hk => exact .both h1 (ih h2) hs hk
  | join2 => intro w h; cases h with | both _ _ _ hk => exact hk _ _
  | abortL => intro w _; exact .fault _ _
  | abortR => intro w _; exact .fault _ _

theorem Width.par {α : Type} {p q : Proc α} {j : Nat} (s : Par p j q) : ∀ {w}, Width p w → Width q w := by
  induction s with
  | idle => exact id
  | pbs => intro w h; cases h with | pbs _ h => exact h
  | fork _ ih => intro w h; cases h with | fork ht hs hk => exact .fork (fun i => ih i (ht i)) hs hk
  | both _ _ ih1 ih2 => intro w h; cases h with | both h1 h2 hs hk => exact .both (ih1 h1) (ih2 h2) hs hk

/-- With enough workers the time is exactly the critical path. -/
theorem Greedy.enough {w : Nat} {α : Type} {p q : Proc α} {T : Nat} (h : Greedy w p T q) :
    ∀ {a d}, Width p w → Span p a d → ∃ d', d = T + d' ∧ Span q a d' := by
  induction h with
  | refl => intro a d _ h; exact ⟨d, by omega, h⟩
  | silent s _ ih => intro a d hw h; exact ih (hw.silent s) (Span.silent s rfl h)
  | @round p _ _ T hs hd s _ ih =>
    intro a d hw h
    have hnr : ¬ ∃ b, p = ret b := fun h => hd ((done_iff p).2 (Or.inl h))
    obtain ⟨g1, g2, g3⟩ := full_round h hs hnr
    obtain ⟨d', e, h'⟩ := ih (hw.par s) (g3 s (Nat.min_eq_right hw.ready))
    exact ⟨d', by omega, h'⟩

theorem exists_split : ∀ {n : Nat} (f : Fin n → Nat) {j : Nat}, j ≤ ∑ i, f i → ∃ c : Fin n → Nat, (∀ i, c i ≤ f i) ∧ ∑ i, c i = j
  | 0, f, j, h => ⟨f, fun i => le_rfl, by simp at h ⊢; omega⟩
  | n + 1, f, j, h => by
    rw [Fin.sum_univ_succ] at h
    obtain ⟨c, hc, hs⟩ := exists_split (fun i => f i.succ) (j := j - min j (f 0)) (by omega)
    refine ⟨Fin.cons (min j (f 0)) c, fun i => ?_, ?_⟩
    · refine Fin.cases ?_ (fun i => ?_) i
      · simp
      · simpa using hc i
    · rw [Fin.sum_univ_succ]
      simp only [Fin.cons_zero, Fin.cons_succ, hs]
      omega

/-- any number of waiting bootstraps can be performed at the same time -/
theorem exists_par {α : Type} (p : Proc α) : ∀ {j}, j ≤ ready p → ∃ q, Par p j q := by
  induction p with
  | ret a => intro j h; obtain rfl : j = 0 := (by simpa [ready] using h); exact ⟨_, .idle _⟩
  | fault f => intro j h; obtain rfl : j = 0 := (by simpa [ready] using h); exact ⟨_, .idle _⟩
  | pbs k _ =>
    intro j h
    have h : j ≤ 1 := h
    rcases Nat.eq_zero_or_pos j with rfl | h'
    · exact ⟨_, .idle _⟩
    · obtain rfl : j = 1 := by omega
      exact ⟨_, .pbs k⟩
  | fork n t k iht _ =>
    intro j h
    obtain ⟨c, hc, rfl⟩ := exists_split (fun i => ready (t i)) (show j ≤ ∑ i, ready (t i) from h)
    choose t' ht' using fun i => iht i (hc i)
    exact ⟨_, .fork ht'⟩
  | both a b k iha ihb _ =>
    intro j h
    have h : j ≤ ready a + ready b := h
    obtain ⟨a', ha⟩ := iha (j := min j (ready a)) (by omega)
    obtain ⟨b', hb⟩ := ihb (j := j - min j (ready a)) (by omega)
    have := Par.both (k := k) ha hb
    rw [show min j (ready a) + (j - min j (ready a)) = j by omega] at this
    exact ⟨_, this⟩

/-- There is a schedule without idle workers, up to the end. -/
theorem Greedy.exists {w : Nat} (hw : 1 ≤ w) {α : Type} : ∀ (n : Nat) {p : Proc α} {a : α}, Eval p a n →
    ∃ T, Greedy w p T (Proc.ret a) := by
  intro n
  induction n using Nat.strongRecOn with
  | _ n ihn =>
    intro p a h
    obtain ⟨c, hc⟩ := exists_bound p
    induction c using Nat.strongRecOn generalizing p with
    | _ c ihc =>
      by_cases hst : Stable p
      · by_cases hd : ∃ b, p = Proc.ret b
        · obtain ⟨b, rfl⟩ := hd
          obtain ⟨rfl, _⟩ := eval_ret h
          exact ⟨0, .refl _⟩
        · obtain ⟨d, _, hs⟩ := h.span
          obtain ⟨g1, _, _⟩ := full_round hs hst hd
          obtain ⟨q, hq⟩ := exists_par p (Nat.min_le_right w (ready p))
          obtain ⟨m, hm, h'⟩ := Eval.par hq h
          obtain ⟨T, hT⟩ := ihn m (by omega) h'
          refine ⟨T + 1, .round hst (fun hdone => ?_) hq hT⟩
          rcases (done_iff p).1 hdone with h1 | ⟨f, rfl⟩
          · exact hd h1
          · cases h
      · have : ∃ q, Step p 0 q := by
          by_contra hn
          exact hst fun q hq => hn ⟨q, hq⟩
        obtain ⟨q, hq⟩ := this
        obtain ⟨m, hm, h'⟩ := h.step hq
        obtain rfl : n = m := by omega
        obtain ⟨c', hlt, hc'⟩ := hc.step hq
        obtain ⟨T, hT⟩ := ihc c' hlt h' hc'
        exact ⟨T, .silent hq hT⟩

/-- a schedule without idle workers is a schedule -/
theorem Greedy.timed {w : Nat} {α : Type} {p q : Proc α} {T : Nat} (h : Greedy w p T q) : Timed w p T q := by
  induction h with
  | refl p => exact .refl p
  | silent s _ ih => exact .silent s ih
  | round _ _ s _ ih => exact .round (Nat.min_le_left _ _) s ih

/-- a schedule does what every interleaving does -/
theorem Timed.value {w : Nat} {α : Type} {p q : Proc α} {T : Nat} (h : Timed w p T q) :
    ∀ {a n}, Eval p a n → ∃ n', Eval q a n' := by
  induction h with
  | refl => intro a n h; exact ⟨n, h⟩
  | silent s _ ih => intro a n h; obtain ⟨m, _, h'⟩ := h.step s; exact ih h'
  | round _ s _ ih => intro a n h; obtain ⟨m, _, h'⟩ := Eval.par s h; exact ih h'

theorem Timed.ends {w : Nat} {α : Type} {p q : Proc α} {T : Nat} (h : Timed w p T q) {a : α} {n : Nat} (he : Eval p a n)
    (hd : Done q) : q = Proc.ret a := by
  obtain ⟨n', hq⟩ := h.value he
  rcases (done_iff q).1 hd with ⟨b, rfl⟩ | ⟨f, rfl⟩
  · obtain ⟨rfl, _⟩ := eval_ret hq; rfl
  · cases hq

end Proc
end Parm
