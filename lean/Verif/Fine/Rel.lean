import Verif.Fine.Rust
import Verif.Fine.Code

/-!
# The model with interleaved tasks and the model with atomic tasks

`Runs p m`: whatever a run of `m` does (in any state, with any order of the tasks), `p` evaluates to
the same value with the same number of bootstraps, or fails if it fails.
-/

namespace Parm
namespace Proc

theorem Eval.bind {α β : Type} {p : Proc α} {f : α → Proc β} {a : α} {b : β} {n m : Nat} (h : Eval p a n)
    (hf : Eval (f a) b m) : Eval (p.bind f) b (n + m) := by
  induction h with
  | ret a => simpa [Proc.bind] using hf
  | @pbs _ _ _ n _ ih =>
    have := Eval.pbs (ih hf)
    rw [show n + m + 1 = n + 1 + m by omega] at this
    exact this
  | fork ht _ _ ih =>
    rw [Nat.add_assoc]
    exact Eval.fork ht (ih hf)
  | both hp hq _ _ _ ih =>
    rw [Nat.add_assoc]
    exact Eval.both hp hq (ih hf)

theorem Bad.bind {α β : Type} {p : Proc α} {f : α → Proc β} (h : Bad p) : Bad (p.bind f) := by
  induction h with
  | fault e => exact .fault e
  | pbs _ ih => exact .pbs ih
  | task i h _ => exact .task i h
  | after ht _ ih => exact .after ht ih
  | left h _ => exact .left h
  | right h _ => exact .right h
  | after2 hp hq _ ih => exact .after2 hp hq ih

theorem Eval.bind_bad {α β : Type} {p : Proc α} {f : α → Proc β} {a : α} {n : Nat} (h : Eval p a n)
    (hf : Bad (f a)) : Bad (p.bind f) := by
  induction h with
  | ret a => exact hf
  | pbs _ ih => exact .pbs (ih hf)
  | fork ht _ _ ih => exact .after ht (ih hf)
  | both hp hq _ _ _ ih => exact .after2 hp hq (ih hf)

theorem Eval.expect {α : Type} {p : Proc α} {a : α} {n : Nat} (h : Eval p a n) : Eval p.expect a n := by
  induction h with
  | ret a => exact .ret a
  | pbs _ ih => exact .pbs ih
  | fork ht _ _ ih => exact .fork ht ih
  | both hp hq _ _ _ ih => exact .both hp hq ih

theorem Bad.expect {α : Type} {p : Proc α} (h : Bad p) : Bad p.expect := by
  induction h with
  | fault e => exact .fault _
  | pbs _ ih => exact .pbs ih
  | task i h _ => exact .task i h
  | after ht _ ih => exact .after ht ih
  | left h _ => exact .left h
  | right h _ => exact .right h
  | after2 hp hq _ ih => exact .after2 hp hq ih

end Proc

namespace Fine
open Proc (Eval Bad)

/-- outcome of a run of the model with atomic tasks from state `s`, as a statement about `p` -/
def Outcome {α : Type} (p : P α) (s : St) : Except Fault (α × St) → Prop
  | .ok (a, s') => ∃ n, s'.pbs = s.pbs + n ∧ Eval p a n
  | .error _ => Bad p

/-- see the head of the file -/
structure Runs {α : Type} (p : P α) (m : M α) : Prop where
  out : ∀ s, Outcome p s (m s)

namespace Runs

theorem pure {α : Type} (a : α) : Runs (Pure.pure a) (Pure.pure a : M α) :=
  ⟨fun _ => ⟨0, rfl, .ret a⟩⟩

theorem err {α : Type} (e : ErrKind) : Runs (P.err e) (M.err e : M α) := ⟨fun _ => .fault _⟩

theorem panic {α : Type} (e : PanicKind) : Runs (P.panic e) (M.panic e : M α) := ⟨fun _ => .fault _⟩

theorem bumpPbs : Runs P.bumpPbs M.bumpPbs := ⟨fun _ => ⟨1, rfl, .pbs (.ret ())⟩⟩

theorem bind {α β : Type} {p : P α} {m : M α} {f : α → P β} {g : α → M β} (h : Runs p m)
    (hf : ∀ a, Runs (f a) (g a)) : Runs (p >>= f) (m >>= g) := by
  refine ⟨fun s => ?_⟩
  have hs := h.out s
  show Outcome (Proc.bind p f) s (Except.bind (m s) fun x => g x.1 x.2)
  rcases hm : m s with e | ⟨a, s1⟩
  · rw [hm] at hs
    exact Bad.bind hs
  · rw [hm] at hs
    obtain ⟨n, hn, he⟩ := hs
    have h2 := (hf a).out s1
    show Outcome (Proc.bind p f) s (g a s1)
    rcases hg : g a s1 with e | ⟨b, s2⟩
    · rw [hg] at h2
      exact he.bind_bad h2
    · rw [hg] at h2
      obtain ⟨n', hn', he'⟩ := h2
      exact ⟨n + n', by omega, he.bind he'⟩

theorem expect {α : Type} {p : P α} {m : M α} (h : Runs p m) : Runs p.expect m.expect := by
  refine ⟨fun s => ?_⟩
  have hs := h.out s
  unfold M.expect
  rcases hm : m s with e | ⟨a, s1⟩
  · rw [hm] at hs
    cases e <;> exact Bad.expect hs
  · rw [hm] at hs
    obtain ⟨n, hn, he⟩ := hs
    exact ⟨n, hn, he.expect⟩

theorem analysed {α : Type} {p : P α} {m : M α} (h : Runs p m) : Runs p m.analysed := by
  refine ⟨fun s => ?_⟩
  have hs := h.out { s with nPbs := 0 :: s.nPbs }
  show Outcome p s (Except.bind (m { s with nPbs := 0 :: s.nPbs }) _)
  rcases hm : m { s with nPbs := 0 :: s.nPbs } with e | ⟨a, s1⟩
  · rw [hm] at hs
    exact hs
  · rw [hm] at hs
    obtain ⟨n, hn, he⟩ := hs
    refine ⟨n, ?_, he⟩
    show St.pbs (match s1.nPbs with
      | n :: t => { s1 with nPbs := bumpTop n t, reports := ⟨s.pbs, s1.pbs, n⟩ :: s1.reports }
      | [] => s1) = _
    split <;> exact hn

theorem call {α : Type} {p : P α} {m : M α} (h : Runs p m) : Runs p.call m.call := h.expect.analysed

theorem ite {α : Type} {c : Prop} [Decidable c] {p q : P α} {m l : M α} (h1 : c → Runs p m) (h2 : ¬ c → Runs q l) :
    Runs (if c then p else q) (if c then m else l) := by
  by_cases h : c
  · simpa [h] using h1 h
  · simpa [h] using h2 h

theorem idx {α : Type} (l : List α) (i : Nat) : Runs (Fine.idx l i) (Parm.idx l i) := by
  unfold Fine.idx Parm.idx
  cases l[i]? with
  | none => exact panic _
  | some a => exact pure a

theorem setIdx {α : Type} (l : List α) (i : Nat) (a : α) : Runs (Fine.setIdx l i a) (Parm.setIdx l i a) :=
  ite (fun _ => pure _) (fun _ => panic _)

theorem runTasks {α : Type} {f : Nat → α → P α} {g : Nat → α → M α} (h : ∀ i a, Runs (f i a) (g i a)) :
    ∀ ord arr, Runs (Fine.runTasks f ord arr) (Parm.runTasks g ord arr)
  | [], _ => pure _
  | _ :: is, _ => bind (idx _ _) fun _ => bind (h _ _) fun _ => runTasks h is _

theorem seqFor {α : Type} {f : Nat → α → P α} {g : Nat → α → M α} (arr : List α) (h : ∀ i a, Runs (f i a) (g i a)) :
    Runs (Fine.seqFor arr f) (Parm.seqFor arr g) := runTasks h _ _

/-- running the tasks in an order without repetitions: every task starts from the initial content of
its slot -/
theorem tasks {α : Type} {f : Nat → α → P α} {g : Nat → α → M α} (h : ∀ i a, Runs (f i a) (g i a)) :
    ∀ (ord : List Nat) (arr : List α) (s : St), ord.Nodup → (∀ i ∈ ord, i < arr.length) →
      match Parm.runTasks g ord arr s with
      | .ok (out, s') => out.length = arr.length ∧ (∀ i, i ∉ ord → out[i]? = arr[i]?) ∧
          ∃ c : Nat → Nat, s'.pbs = s.pbs + (ord.map c).sum ∧
            ∀ i ∈ ord, ∃ a b, arr[i]? = some a ∧ out[i]? = some b ∧ Eval (f i a) b (c i)
      | .error _ => ∃ i ∈ ord, ∃ a, arr[i]? = some a ∧ Bad (f i a)
  | [], arr, s, _, _ => ⟨rfl, fun _ _ => rfl, fun _ => 0, rfl, fun _ h => by simp at h⟩
  | i :: is, arr, s, hnd, hlt => by
    have hi : i < arr.length := hlt i (by simp)
    obtain ⟨hni, hnd'⟩ := List.nodup_cons.1 hnd
    have e1 : arr[i]? = some arr[i] := List.getElem?_eq_getElem hi
    have e : Parm.runTasks g (i :: is) arr s
        = Except.bind (g i arr[i] s) fun x => Parm.runTasks g is (arr.set i x.1) x.2 := by
      show Except.bind (Parm.idx arr i s) _ = _
      have : Parm.idx arr i s = .ok (arr[i], s) := by unfold Parm.idx; rw [e1]; rfl
      rw [this]; rfl
    rw [e]
    have hs := (h i arr[i]).out s
    rcases hg : g i arr[i] s with er | ⟨b, s1⟩
    · rw [hg] at hs
      exact ⟨i, by simp, arr[i], e1, hs⟩
    · rw [hg] at hs
      obtain ⟨n, hn, he⟩ := hs
      have ih := tasks h is (arr.set i b) s1 hnd' (fun j hj => by
        rw [List.length_set]; exact hlt j (by simp [hj]))
      show (match Parm.runTasks g is (arr.set i b) s1 with | .ok (out, s') => _ | .error _ => _)
      have hne : ∀ j ∈ is, i ≠ j := fun j hj e => hni (e ▸ hj)
      rcases hr : Parm.runTasks g is (arr.set i b) s1 with er | ⟨out, s2⟩
      · rw [hr] at ih
        obtain ⟨j, hj, a, ha, hb⟩ := ih
        rw [List.getElem?_set_ne (hne j hj)] at ha
        exact ⟨j, by simp [hj], a, ha, hb⟩
      · rw [hr] at ih
        obtain ⟨hl, ho, c, hc, hev⟩ := ih
        refine ⟨by simpa using hl, fun j hj => ?_, fun j => if j = i then n else c j, ?_, fun j hj => ?_⟩
        · simp only [List.mem_cons, not_or] at hj
          rw [ho j hj.2, List.getElem?_set_ne (Ne.symm hj.1)]
        · have : (is.map fun j => if j = i then n else c j) = is.map c :=
            List.map_congr_left fun j hj => by simp [Ne.symm (hne j hj)]
          simp only [List.map_cons, List.sum_cons, if_true, this]
          omega
        · rcases List.mem_cons.1 hj with rfl | hj
          · refine ⟨arr[j], b, e1, ?_, by simpa using he⟩
            rw [ho j hni, List.getElem?_set_self hi]
          · obtain ⟨a, b', ha, hb', hev'⟩ := hev j hj
            rw [List.getElem?_set_ne (hne j hj)] at ha
            exact ⟨a, b', ha, hb', by simpa [Ne.symm (hne j hj)] using hev'⟩

theorem parFor {α : Type} {f : Nat → α → P α} {g : Nat → α → M α} (arr : List α)
    (h : ∀ i a, Runs (f i a) (g i a)) : Runs (Fine.parFor arr f) (Parm.parFor arr g) := by
  refine ⟨fun s => ?_⟩
  have hp := s.sched.perm s.region arr.length
  have ht := tasks h (s.sched.order s.region arr.length) arr { s with region := s.region + 1 }
    (hp.nodup_iff.2 List.nodup_range) (fun i hi => by simpa using hp.mem_iff.1 hi)
  show Outcome (Fine.parFor arr f) s (Parm.runTasks g (s.sched.order s.region arr.length) arr
    { s with region := s.region + 1 })
  rcases hr : Parm.runTasks g (s.sched.order s.region arr.length) arr { s with region := s.region + 1 }
    with er | ⟨out, s2⟩
  · rw [hr] at ht
    obtain ⟨i, hi, a, ha, hb⟩ := ht
    have hi' : i < arr.length := by simpa using hp.mem_iff.1 hi
    rw [List.getElem?_eq_getElem hi'] at ha
    cases ha
    exact Bad.task (t := fun i : Fin arr.length => f i.val arr[i]) ⟨i, hi'⟩ hb
  · rw [hr] at ht
    obtain ⟨hl, _, c, hc, hev⟩ := ht
    have hev' : ∀ i : Fin arr.length, Eval (f i.val arr[i]) (out[i.val]'(by omega)) (c i) := fun i => by
      obtain ⟨a, b, ha, hb, he⟩ := hev i.val (hp.mem_iff.2 (by simp))
      rw [List.getElem?_eq_getElem i.isLt] at ha
      rw [List.getElem?_eq_getElem (by omega)] at hb
      cases ha; cases hb
      exact he
    refine ⟨(List.map c (s.sched.order s.region arr.length)).sum, hc, ?_⟩
    have hsum : (List.map c (s.sched.order s.region arr.length)).sum = ∑ i : Fin arr.length, c i := by
      rw [(hp.map c).sum_eq, Fin.sum_univ_def, ← List.map_coe_finRange_eq_range, List.map_map]
      rfl
    rw [hsum]
    have hout : List.ofFn (fun i : Fin arr.length => out[i.val]'(by omega)) = out := by
      apply List.ext_getElem
      · simp [hl]
      · intro i h1 h2; simp
    have := Eval.fork (k := fun r => (Pure.pure (List.ofFn r) : P (List α))) hev' (.ret _)
    rw [hout] at this
    exact this

theorem par2 {α β : Type} {p : P α} {q : P β} {m : M α} {l : M β} (hp : Runs p m) (hq : Runs q l) :
    Runs (Fine.par2 p q) (Parm.par2 m l) := by
  refine ⟨fun s => ?_⟩
  set s0 : St := { s with region := s.region + 1 } with hs0
  have key1 : Runs (Fine.par2 p q) (do let x ← m; let y ← l; Pure.pure (x, y)) := by
    refine ⟨fun s => ?_⟩
    have h1 := hp.out s
    show Outcome _ s (Except.bind (m s) fun x => Except.bind (l x.2) fun y => .ok ((x.1, y.1), y.2))
    rcases hm : m s with er | ⟨x, s1⟩
    · rw [hm] at h1; exact Bad.left h1
    · rw [hm] at h1
      obtain ⟨n, hn, he⟩ := h1
      have h2 := hq.out s1
      show Outcome _ s (Except.bind (l s1) fun y => .ok ((x, y.1), y.2))
      rcases hl : l s1 with er | ⟨y, s2⟩
      · rw [hl] at h2; exact Bad.right h2
      · rw [hl] at h2
        obtain ⟨n', hn', he'⟩ := h2
        exact ⟨n + n', by show s2.pbs = _; omega, Eval.both (m := 0) he he' (.ret (x, y))⟩
  have key2 : Runs (Fine.par2 p q) (do let y ← l; let x ← m; Pure.pure (x, y)) := by
    refine ⟨fun s => ?_⟩
    have h1 := hq.out s
    show Outcome _ s (Except.bind (l s) fun y => Except.bind (m y.2) fun x => .ok ((x.1, y.1), x.2))
    rcases hm : l s with er | ⟨y, s1⟩
    · rw [hm] at h1; exact Bad.right h1
    · rw [hm] at h1
      obtain ⟨n, hn, he⟩ := h1
      have h2 := hp.out s1
      show Outcome _ s (Except.bind (m s1) fun x => .ok ((x.1, y), x.2))
      rcases hl : m s1 with er | ⟨x, s2⟩
      · rw [hl] at h2; exact Bad.left h2
      · rw [hl] at h2
        obtain ⟨n', hn', he'⟩ := h2
        exact ⟨n' + n, by show s2.pbs = _; omega, Eval.both (m := 0) he' he (.ret (x, y))⟩
  have : Parm.par2 m l s = (if (s.sched.order s.region 2).head? = some 0
      then (do let x ← m; let y ← l; Pure.pure (x, y)) else (do let y ← l; let x ← m; Pure.pure (x, y)) : M (α × β)) s0 := rfl
  rw [this]
  split
  · exact key1.out s0
  · exact key2.out s0

/-- the order of three tasks, one after another, does not matter either -/
theorem par3 {α β γ : Type} {p : P α} {q : P β} {r : P γ} {m : M α} {l : M β} {k : M γ} (hp : Runs p m)
    (hq : Runs q l) (hr : Runs r k) : Runs (Fine.par3 p q r) (Parm.par3 m l k) := by
  -- outcome of three tasks, from what each of them does in some state
  have fin : ∀ (s s' : St) {x : α} {y : β} {z : γ} {n1 n2 n3 : Nat}, Eval p x n1 → Eval q y n2 → Eval r z n3 →
      s'.pbs = s.pbs + (n1 + (n2 + n3)) → Outcome (Fine.par3 p q r) s (.ok ((x, y, z), s')) := by
    intro s s' x y z n1 n2 n3 h1 h2 h3 hs
    have h23 : Eval (Fine.par2 q r) (y, z) (n2 + n3) := Eval.both (m := 0) h2 h3 (.ret (y, z))
    exact ⟨_, hs, Eval.both (m := 0) h1 h23 (.ret (x, (y, z)))⟩
  have bp : Bad p → Bad (Fine.par3 p q r) := fun h => .left h
  have bq : Bad q → Bad (Fine.par3 p q r) := fun h => .right (.left h)
  have br : Bad r → Bad (Fine.par3 p q r) := fun h => .right (.right h)
  refine ⟨fun s => ?_⟩
  set s0 : St := { s with region := s.region + 1 } with hs0
  have hpb : s0.pbs = s.pbs := rfl
  have e : Parm.par3 m l k s = (if (s.sched.order s.region 3).head? = some 0 then do
      let x ← m
      if (s.sched.order s.region 3)[1]? = some 1 then do
        let y ← l
        let z ← k
        Pure.pure (x, y, z)
      else do
        let z ← k
        let y ← l
        Pure.pure (x, y, z)
    else if (s.sched.order s.region 3).head? = some 1 then do
      let y ← l
      if (s.sched.order s.region 3)[1]? = some 0 then do
        let x ← m
        let z ← k
        Pure.pure (x, y, z)
      else do
        let z ← k
        let x ← m
        Pure.pure (x, y, z)
    else do
      let z ← k
      if (s.sched.order s.region 3)[1]? = some 0 then do
        let x ← m
        let y ← l
        Pure.pure (x, y, z)
      else do
        let y ← l
        let x ← m
        Pure.pure (x, y, z) : M (α × β × γ)) s0 := rfl
  rw [e]
  have step : ∀ {δ : Type} {p' : P δ} {m' : M δ} (_ : Runs p' m') (f : δ → M (α × β × γ)) (s1 : St),
      (Bad p' → Bad (Fine.par3 p q r)) →
      (∀ x s2 n, s2.pbs = s1.pbs + n → Eval p' x n → Outcome (Fine.par3 p q r) s (f x s2)) →
      Outcome (Fine.par3 p q r) s ((m' >>= f) s1) := by
    intro δ p' m' h f s1 hb hf
    have hs := h.out s1
    have e : (m' >>= f) s1 = Except.bind (m' s1) fun x => f x.1 x.2 := rfl
    rcases hm : m' s1 with er | ⟨x, s2⟩
    · rw [hm] at hs; rw [e, hm]; exact hb hs
    · rw [hm] at hs
      obtain ⟨n, hn, he⟩ := hs
      rw [e, hm]
      exact hf x s2 n hn he
  split
  · refine step hp _ _ bp fun x s1 n1 e1 v1 => ?_
    split
    · refine step hq _ _ bq fun y s2 n2 e2 v2 => step hr _ _ br fun z s3 n3 e3 v3 => ?_
      exact fin s s3 v1 v2 v3 (by omega)
    · refine step hr _ _ br fun z s2 n2 e2 v2 => step hq _ _ bq fun y s3 n3 e3 v3 => ?_
      exact fin s s3 v1 v3 v2 (by omega)
  · split
    · refine step hq _ _ bq fun y s1 n1 e1 v1 => ?_
      split
      · refine step hp _ _ bp fun x s2 n2 e2 v2 => step hr _ _ br fun z s3 n3 e3 v3 => ?_
        exact fin s s3 v2 v1 v3 (by omega)
      · refine step hr _ _ br fun z s2 n2 e2 v2 => step hp _ _ bp fun x s3 n3 e3 v3 => ?_
        exact fin s s3 v3 v1 v2 (by omega)
    · refine step hr _ _ br fun z s1 n1 e1 v1 => ?_
      split
      · refine step hp _ _ bp fun x s2 n2 e2 v2 => step hq _ _ bq fun y s3 n3 e3 v3 => ?_
        exact fin s s3 v2 v3 v1 (by omega)
      · refine step hq _ _ bq fun y s2 n2 e2 v2 => step hp _ _ bp fun x s3 n3 e3 v3 => ?_
        exact fin s s3 v3 v2 v1 (by omega)

end Runs
end Fine
end Parm
