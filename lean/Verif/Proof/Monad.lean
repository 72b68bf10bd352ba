import Verif.Spec
import Mathlib.Data.List.Perm.Basic
import Mathlib.Algebra.BigOperators.Group.List.Basic

/-!
# Program logic for the effect monad
-/

namespace Parm

/-- value and cost together -/
def CYields {α : Type} (m : M α) (P : α → Nat → Prop) : Prop := ∃ a n, Returns m a n ∧ P a n

theorem bumpTop_zero (l : List Nat) : bumpTop 0 l = l := by cases l <;> rfl

theorem bumpTop_add (n k : Nat) (l : List Nat) : bumpTop k (bumpTop n l) = bumpTop (n + k) l := by
  cases l with
  | nil => rfl
  | cons a t => simp [bumpTop, Nat.add_assoc]

/-- by evaluation, without bootstraps -/
theorem Returns.run {α : Type} {m : M α} {a : α} (h : ∀ s : St, ∃ r, m s = .ok (a, { s with region := r })) :
    Returns m a 0 := by
  intro s
  obtain ⟨r, hr⟩ := h s
  refine ⟨r, [], by simp, ?_⟩
  rw [hr, bumpTop_zero]; rfl

theorem Returns.pure {α : Type} (a : α) : Returns (Pure.pure a : M α) a 0 :=
  Returns.run fun s => ⟨s.region, rfl⟩

theorem bind_ok {α β : Type} {m : M α} {f : α → M β} {s s' : St} {a : α}
    (h : m s = .ok (a, s')) : (m >>= f) s = f a s' := by
  show (StateT.bind m f) s = _
  unfold StateT.bind
  rw [h]; rfl

theorem bind_error {α β : Type} {m : M α} {f : α → M β} {s : St} {e : Fault}
    (h : m s = .error e) : (m >>= f) s = .error e := by
  show (StateT.bind m f) s = _
  unfold StateT.bind
  rw [h]; rfl

theorem Returns.bind {α β : Type} {m : M α} {f : α → M β} {a : α} {b : β} {n k : Nat}
    (h1 : Returns m a n) (h2 : Returns (f a) b k) : Returns (m >>= f) b (n + k) := by
  intro s
  obtain ⟨r, rp, hx, hr⟩ := h1 s
  obtain ⟨r', rp', hx', hr'⟩ := h2 ⟨s.sched, r, s.pbs + n, bumpTop n s.nPbs, rp ++ s.reports⟩
  refine ⟨r', rp' ++ rp, ?_, ?_⟩
  · intro p hp
    rcases List.mem_append.1 hp with h | h
    · exact hx' p h
    · exact hx p h
  · rw [bind_ok hr, hr']
    simp [Nat.add_assoc, bumpTop_add]

theorem Returns.bindEq {α β : Type} {m : M α} {f : α → M β} {a : α} {b : β} {n k t : Nat}
    (h1 : Returns m a n) (ht : n + k = t) (h2 : Returns (f a) b k) : Returns (m >>= f) b t :=
  ht ▸ h1.bind h2

theorem Returns.bind0 {α β : Type} {m : M α} {f : α → M β} {a : α} {b : β} {k : Nat}
    (h1 : Returns m a 0) (h2 : Returns (f a) b k) : Returns (m >>= f) b k :=
  h1.bindEq (Nat.zero_add k) h2

theorem Returns.congr {α : Type} {m : M α} {a b : α} {n k : Nat}
    (h : Returns m a n) (hab : a = b) (hn : n = k) : Returns m b k := hab ▸ hn ▸ h

theorem Returns.expect {α : Type} {m : M α} {a : α} {n : Nat} (h : Returns m a n) :
    Returns m.expect a n := by
  intro s
  obtain ⟨r, rp, hx, hr⟩ := h s
  refine ⟨r, rp, hx, ?_⟩
  unfold M.expect
  rw [hr]

/-- `start_pbs_analysis!`/`finish_pbs_analysis!` around a computation: its cost is printed, and added
to the count of the surrounding one. -/
theorem Returns.analysed_run {α : Type} {m : M α} {a : α} {n : Nat} (h : Returns m a n) (s : St) :
    ∃ (r : Nat) (rep : List Report), (∀ p ∈ rep, p.Exact) ∧
      M.analysed m s = .ok (a, { sched := s.sched, region := r, pbs := s.pbs + n, nPbs := bumpTop n s.nPbs,
                                 reports := ⟨s.pbs, s.pbs + n, n⟩ :: (rep ++ s.reports) }) := by
  obtain ⟨r, rp, hx, hr⟩ := h { s with nPbs := 0 :: s.nPbs }
  refine ⟨r, rp, hx, ?_⟩
  unfold M.analysed
  have h1 : (get : M St) s = .ok (s, s) := rfl
  rw [bind_ok h1]
  have h2 : (set { s with nPbs := 0 :: s.nPbs } : M Unit) s = .ok ((), { s with nPbs := 0 :: s.nPbs }) := rfl
  rw [bind_ok h2, bind_ok hr]
  simp only [bumpTop, Nat.zero_add]
  rfl

theorem Returns.analysed {α : Type} {m : M α} {a : α} {n : Nat} (h : Returns m a n) :
    Returns (M.analysed m) a n := by
  intro s
  obtain ⟨r, rp, hx, hr⟩ := h.analysed_run s
  refine ⟨r, ⟨s.pbs, s.pbs + n, n⟩ :: rp, ?_, hr⟩
  intro p hp
  rcases List.mem_cons.1 hp with rfl | hp
  · rfl
  · exact hx p hp

theorem Returns.call {α : Type} {m : M α} {a : α} {n : Nat} (h : Returns m a n) :
    Returns m.call a n := h.expect.analysed

/-- value and cost are unique -/
theorem Returns.unique {α : Type} {m : M α} {a b : α} {n k : Nat}
    (h1 : Returns m a n) (h2 : Returns m b k) : a = b ∧ n = k := by
  obtain ⟨r, _, _, hr⟩ := h1 (St.init Sched.seq)
  obtain ⟨r', _, _, hr'⟩ := h2 (St.init Sched.seq)
  rw [hr] at hr'
  simp at hr'
  exact ⟨hr'.1, hr'.2.2.1⟩

theorem Returns.not_fails {α : Type} {m : M α} {a : α} {n : Nat} {f : Fault}
    (h1 : Returns m a n) (h2 : Fails m f) : False := by
  obtain ⟨r, _, _, hr⟩ := h1 (St.init Sched.seq)
  have := h2 (St.init Sched.seq)
  rw [hr] at this; cases this

theorem Fails.bind {α β : Type} {m : M α} {f : α → M β} {e : Fault} (h : Fails m e) :
    Fails (m >>= f) e := fun s => bind_error (h s)

theorem Returns.bind_fails {α β : Type} {m : M α} {f : α → M β} {a : α} {n : Nat} {e : Fault}
    (h1 : Returns m a n) (h2 : Fails (f a) e) : Fails (m >>= f) e := by
  intro s
  obtain ⟨r, rp, hx, hr⟩ := h1 s
  rw [bind_ok hr]; exact h2 _

theorem Fails.err {α : Type} (e : ErrKind) : Fails (M.err e : M α) (.err e) := fun _ => rfl
theorem Fails.panic {α : Type} (p : PanicKind) : Fails (M.panic p : M α) (.panic p) := fun _ => rfl

theorem Fails.expect_err {α : Type} {m : M α} {e : ErrKind} (h : Fails m (.err e)) :
    Fails m.expect (.panic (.expect e)) := by
  intro s; unfold M.expect; rw [h s]

theorem Fails.expect_panic {α : Type} {m : M α} {p : PanicKind} (h : Fails m (.panic p)) :
    Fails m.expect (.panic p) := by
  intro s; unfold M.expect; rw [h s]

theorem Fails.analysed {α : Type} {m : M α} {f : Fault} (h : Fails m f) : Fails (M.analysed m) f := by
  intro s
  unfold M.analysed
  have h1 : (get : M St) s = .ok (s, s) := rfl
  rw [bind_ok h1]
  have h2 : (set { s with nPbs := 0 :: s.nPbs } : M Unit) s = .ok ((), { s with nPbs := 0 :: s.nPbs }) := rfl
  rw [bind_ok h2, bind_error (h _)]

theorem Fails.call_err {α : Type} {m : M α} {e : ErrKind} (h : Fails m (.err e)) :
    Fails m.call (.panic (.expect e)) := h.expect_err.analysed

theorem Fails.call_panic {α : Type} {m : M α} {p : PanicKind} (h : Fails m (.panic p)) :
    Fails m.call (.panic p) := h.expect_panic.analysed

theorem Yields.pure {α : Type} {a : α} {P : α → Prop} (h : P a) : Yields (Pure.pure a) P :=
  ⟨a, 0, Returns.pure a, h⟩

theorem Yields.bind {α β : Type} {m : M α} {f : α → M β} {P : α → Prop} {Q : β → Prop}
    (h1 : Yields m P) (h2 : ∀ a, P a → Yields (f a) Q) : Yields (m >>= f) Q := by
  obtain ⟨a, n, ha, hp⟩ := h1
  obtain ⟨b, k, hb, hq⟩ := h2 a hp
  exact ⟨b, n + k, ha.bind hb, hq⟩

theorem Yields.mono {α : Type} {m : M α} {P Q : α → Prop}
    (h1 : Yields m P) (h2 : ∀ a, P a → Q a) : Yields m Q := by
  obtain ⟨a, n, ha, hp⟩ := h1
  exact ⟨a, n, ha, h2 a hp⟩

theorem Yields.expect {α : Type} {m : M α} {P : α → Prop} (h : Yields m P) :
    Yields m.expect P := by
  obtain ⟨a, n, ha, hp⟩ := h
  exact ⟨a, n, ha.expect, hp⟩

theorem Yields.call {α : Type} {m : M α} {P : α → Prop} (h : Yields m P) : Yields m.call P := by
  obtain ⟨a, n, ha, hp⟩ := h
  exact ⟨a, n, ha.call, hp⟩

theorem Returns.yields {α : Type} {m : M α} {a : α} {n : Nat} {P : α → Prop}
    (h : Returns m a n) (hp : P a) : Yields m P := ⟨a, n, h, hp⟩

theorem CYields.pure {α : Type} {a : α} {P : α → Nat → Prop} (h : P a 0) :
    CYields (Pure.pure a) P := ⟨a, 0, Returns.pure a, h⟩

theorem CYields.bind {α β : Type} {m : M α} {f : α → M β} {P : α → Nat → Prop}
    {Q : β → Nat → Prop} (h1 : CYields m P)
    (h2 : ∀ a n, P a n → CYields (f a) (fun b k => Q b (n + k))) : CYields (m >>= f) Q := by
  obtain ⟨a, n, ha, hp⟩ := h1
  obtain ⟨b, k, hb, hq⟩ := h2 a n hp
  exact ⟨b, n + k, ha.bind hb, hq⟩

theorem CYields.mono {α : Type} {m : M α} {P Q : α → Nat → Prop}
    (h1 : CYields m P) (h2 : ∀ a n, P a n → Q a n) : CYields m Q := by
  obtain ⟨a, n, ha, hp⟩ := h1
  exact ⟨a, n, ha, h2 a n hp⟩

theorem CYields.expect {α : Type} {m : M α} {P : α → Nat → Prop} (h : CYields m P) :
    CYields m.expect P := by
  obtain ⟨a, n, ha, hp⟩ := h
  exact ⟨a, n, ha.expect, hp⟩

theorem CYields.call {α : Type} {m : M α} {P : α → Nat → Prop} (h : CYields m P) : CYields m.call P := by
  obtain ⟨a, n, ha, hp⟩ := h
  exact ⟨a, n, ha.call, hp⟩

theorem CYields.yields {α : Type} {m : M α} {P : α → Nat → Prop} (h : CYields m P) :
    Yields m (fun a => ∃ n, P a n) := by
  obtain ⟨a, n, ha, hp⟩ := h
  exact ⟨a, n, ha, n, hp⟩

/-! ### Primitives -/

theorem Returns.bumpPbs : Returns M.bumpPbs () 1 := fun s => ⟨s.region, [], by simp, rfl⟩

theorem Returns.idx {α : Type} {l : List α} {i : Nat} (h : i < l.length) :
    Returns (idx l i) l[i] 0 := by
  unfold Parm.idx
  rw [List.getElem?_eq_getElem h]
  exact Returns.pure _

theorem Returns.setIdx {α : Type} {l : List α} {i : Nat} {a : α} (h : i < l.length) :
    Returns (setIdx l i a) (l.set i a) 0 := by
  unfold Parm.setIdx
  rw [if_pos h]
  exact Returns.pure _

/-- running the tasks of a duplicate-free order -/
theorem Returns.runTasks {α : Type} {f : Nat → α → M α} (g : Nat → α) (c : Nat → Nat) :
    ∀ (ord : List Nat) (arr : List α), ord.Nodup → (∀ i ∈ ord, i < arr.length) →
      (∀ i (_ : i ∈ ord) (hi : i < arr.length), Returns (f i arr[i]) (g i) (c i)) →
      Returns (runTasks f ord arr)
        ((List.range arr.length).map fun i => if i ∈ ord then g i else arr.getD i (g i))
        ((ord.map c).sum)
  | [], arr, _, _, _ => by
    have : ((List.range arr.length).map fun i =>
        if i ∈ ([] : List Nat) then g i else arr.getD i (g i)) = arr := by
      apply List.ext_getElem
      · simp
      · intro i h1 h2
        simp [h2]
    rw [this]
    exact Returns.pure arr
  | i :: is, arr, hnd, hlt, hf => by
    have hi : i < arr.length := hlt i (by simp)
    have hnot : i ∉ is := (List.nodup_cons.1 hnd).1
    have ih := Returns.runTasks (f := f) g c is (arr.set i (g i)) (List.nodup_cons.1 hnd).2
      (by intro j hj; simpa using hlt j (by simp [hj]))
      (by
        intro j hj hjl
        have hne : i ≠ j := by rintro rfl; exact hnot hj
        have := hf j (by simp [hj]) (by simpa using hjl)
        simpa [List.getElem_set, hne] using this)
    have e : ((List.range (arr.set i (g i)).length).map fun j =>
          if j ∈ is then g j else (arr.set i (g i)).getD j (g j))
        = ((List.range arr.length).map fun j =>
          if j ∈ i :: is then g j else arr.getD j (g j)) := by
      rw [List.length_set]
      apply List.map_congr_left
      intro j hj
      have hj' : j < arr.length := by simpa using hj
      by_cases hji : j = i
      · subst hji
        simp [hnot, hj']
      · have hij : i ≠ j := fun h => hji h.symm
        simp [hji, hj', hij]
    rw [e] at ih
    unfold Parm.runTasks
    refine (Returns.idx hi).bindEq (k := ((i :: is).map c).sum) (by simp) ?_
    refine (hf i (by simp) hi).bindEq (k := (is.map c).sum) (by simp) ih

theorem Returns.nextOrder_bind {α : Type} {k : Nat} {f : List Nat → M α} {a : α} {n : Nat}
    (h : ∀ ord : List Nat, ord.Perm (List.range k) → Returns (f ord) a n) :
    Returns (M.nextOrder k >>= f) a n := by
  intro s
  have hp := s.sched.perm s.region k
  obtain ⟨r, rp, hx, hr⟩ := h _ hp { s with region := s.region + 1 }
  refine ⟨r, rp, hx, ?_⟩
  have : M.nextOrder k s = .ok (s.sched.order s.region k, { s with region := s.region + 1 }) := rfl
  rw [bind_ok this, hr]

theorem Returns.parFor {α : Type} {arr : List α} {f : Nat → α → M α} (g : Nat → α) (c : Nat → Nat)
    (h : ∀ i (hi : i < arr.length), Returns (f i arr[i]) (g i) (c i)) :
    Returns (parFor arr f) ((List.range arr.length).map g) (((List.range arr.length).map c).sum) := by
  unfold Parm.parFor
  apply Returns.nextOrder_bind
  intro ord hp
  have h1 := Returns.runTasks (f := f) g c ord arr
    (hp.nodup_iff.2 List.nodup_range)
    (fun i hi => by simpa using hp.mem_iff.1 hi)
    (fun i _ hi => h i hi)
  have e1 : (ord.map c).sum = ((List.range arr.length).map c).sum := (hp.map c).sum_eq
  have e2 : ((List.range arr.length).map fun i => if i ∈ ord then g i else arr.getD i (g i))
      = (List.range arr.length).map g := by
    apply List.map_congr_left
    intro i hi
    rw [if_pos (hp.mem_iff.2 hi)]
  rw [e1, e2] at h1
  exact h1

theorem Returns.seqFor {α : Type} {arr : List α} {f : Nat → α → M α} (g : Nat → α) (c : Nat → Nat)
    (h : ∀ i (hi : i < arr.length), Returns (f i arr[i]) (g i) (c i)) :
    Returns (seqFor arr f) ((List.range arr.length).map g) (((List.range arr.length).map c).sum) := by
  unfold Parm.seqFor
  have h1 := Returns.runTasks (f := f) g c (List.range arr.length) arr
    List.nodup_range (fun i hi => by simpa using hi) (fun i _ hi => h i hi)
  have e2 : ((List.range arr.length).map fun i =>
      if i ∈ List.range arr.length then g i else arr.getD i (g i))
      = (List.range arr.length).map g := by
    apply List.map_congr_left
    intro i hi
    rw [if_pos hi]
  rw [e2] at h1
  exact h1

/-- parallel loop, relationally: slot `i` of the result satisfies the postcondition of task
`i`, the cost is the sum of the costs -/
theorem CYields.parFor {α : Type} {arr : List α} {f : Nat → α → M α} {P : Nat → α → Nat → Prop}
    (h : ∀ i (hi : i < arr.length), CYields (f i arr[i]) (P i)) :
    CYields (parFor arr f) (fun res n => ∃ c : Nat → Nat, res.length = arr.length ∧
      (∀ i (hi : i < res.length), P i res[i] (c i)) ∧ n = ((List.range arr.length).map c).sum) := by
  classical
  by_cases h0 : 0 < arr.length
  · let g : Nat → α := fun i => if hi : i < arr.length then (h i hi).choose else arr[0]
    let c : Nat → Nat := fun i =>
      if hi : i < arr.length then (h i hi).choose_spec.choose else 0
    have hs : ∀ i (hi : i < arr.length), Returns (f i arr[i]) (g i) (c i) ∧ P i (g i) (c i) := by
      intro i hi
      have := (h i hi).choose_spec.choose_spec
      simpa [g, c, hi] using this
    refine ⟨_, _, Returns.parFor g c (fun i hi => (hs i hi).1), c, by simp, ?_, rfl⟩
    intro i hi
    have hi' : i < arr.length := by simpa using hi
    simpa using (hs i hi').2
  · have : arr = [] := List.length_eq_zero_iff.1 (by omega)
    subst this
    refine ⟨[], 0, ?_, fun _ => 0, rfl, ?_, by simp⟩
    · unfold Parm.parFor
      apply Returns.nextOrder_bind
      intro ord hp
      have : ord = [] := by simpa using hp
      subst this
      exact Returns.pure _
    · intro i hi; simp at hi

theorem CYields.seqFor {α : Type} {arr : List α} {f : Nat → α → M α} {P : Nat → α → Nat → Prop}
    (h : ∀ i (hi : i < arr.length), CYields (f i arr[i]) (P i)) :
    CYields (seqFor arr f) (fun res n => ∃ c : Nat → Nat, res.length = arr.length ∧
      (∀ i (hi : i < res.length), P i res[i] (c i)) ∧ n = ((List.range arr.length).map c).sum) := by
  classical
  by_cases h0 : 0 < arr.length
  · let g : Nat → α := fun i => if hi : i < arr.length then (h i hi).choose else arr[0]
    let c : Nat → Nat := fun i =>
      if hi : i < arr.length then (h i hi).choose_spec.choose else 0
    have hs : ∀ i (hi : i < arr.length), Returns (f i arr[i]) (g i) (c i) ∧ P i (g i) (c i) := by
      intro i hi
      have := (h i hi).choose_spec.choose_spec
      simpa [g, c, hi] using this
    refine ⟨_, _, Returns.seqFor g c (fun i hi => (hs i hi).1), c, by simp, ?_, rfl⟩
    intro i hi
    have hi' : i < arr.length := by simpa using hi
    simpa using (hs i hi').2
  · have : arr = [] := List.length_eq_zero_iff.1 (by omega)
    subst this
    refine ⟨[], 0, Returns.pure _, fun _ => 0, rfl, ?_, by simp⟩
    intro i hi; simp at hi

theorem Yields.parFor {α : Type} {arr : List α} {f : Nat → α → M α} {P : Nat → α → Prop}
    (h : ∀ i (hi : i < arr.length), Yields (f i arr[i]) (P i)) :
    Yields (parFor arr f) (fun res => res.length = arr.length ∧
      ∀ i (hi : i < res.length), P i res[i]) := by
  have := CYields.parFor (arr := arr) (f := f) (P := fun i a _ => P i a) (fun i hi => h i hi)
  obtain ⟨a, n, ha, c, h1, h2, _⟩ := this
  exact ⟨a, n, ha, h1, h2⟩

theorem Yields.seqFor {α : Type} {arr : List α} {f : Nat → α → M α} {P : Nat → α → Prop}
    (h : ∀ i (hi : i < arr.length), Yields (f i arr[i]) (P i)) :
    Yields (seqFor arr f) (fun res => res.length = arr.length ∧
      ∀ i (hi : i < res.length), P i res[i]) := by
  have := CYields.seqFor (arr := arr) (f := f) (P := fun i a _ => P i a) (fun i hi => h i hi)
  obtain ⟨a, n, ha, c, h1, h2, _⟩ := this
  exact ⟨a, n, ha, h1, h2⟩

theorem Returns.par2 {α β : Type} {a : M α} {b : M β} {x : α} {y : β} {n k : Nat}
    (ha : Returns a x n) (hb : Returns b y k) : Returns (par2 a b) (x, y) (n + k) := by
  unfold Parm.par2
  apply Returns.nextOrder_bind
  intro ord _
  split
  · exact ha.bindEq rfl (hb.bindEq (Nat.add_zero k) (Returns.pure (x, y)))
  · exact hb.bindEq (Nat.add_comm k n) (ha.bindEq (Nat.add_zero n) (Returns.pure (x, y)))

theorem Returns.par3 {α β γ : Type} {a : M α} {b : M β} {c : M γ} {x : α} {y : β} {z : γ}
    {n k l : Nat} (ha : Returns a x n) (hb : Returns b y k) (hc : Returns c z l) :
    Returns (par3 a b c) (x, y, z) (n + k + l) := by
  unfold Parm.par3
  apply Returns.nextOrder_bind
  intro ord _
  have hp := Returns.pure (x, y, z)
  split
  · refine ha.bindEq (k := k + l) (by omega) ?_
    split
    · exact hb.bindEq rfl (hc.bindEq rfl hp)
    · exact hc.bindEq (k := k) (by omega) (hb.bindEq rfl hp)
  · split
    · refine hb.bindEq (k := n + l) (by omega) ?_
      split
      · exact ha.bindEq rfl (hc.bindEq rfl hp)
      · exact hc.bindEq (k := n) (by omega) (ha.bindEq rfl hp)
    · refine hc.bindEq (k := n + k) (by omega) ?_
      split
      · exact ha.bindEq rfl (hb.bindEq rfl hp)
      · exact hb.bindEq (k := n) (by omega) (ha.bindEq rfl hp)

theorem Yields.par2 {α β : Type} {a : M α} {b : M β} {P : α → Prop} {Q : β → Prop}
    (ha : Yields a P) (hb : Yields b Q) : Yields (par2 a b) (fun r => P r.1 ∧ Q r.2) := by
  obtain ⟨x, n, h1, hp⟩ := ha
  obtain ⟨y, k, h2, hq⟩ := hb
  exact ⟨(x, y), _, h1.par2 h2, hp, hq⟩

theorem Yields.par3 {α β γ : Type} {a : M α} {b : M β} {c : M γ} {P : α → Prop} {Q : β → Prop}
    {R : γ → Prop} (ha : Yields a P) (hb : Yields b Q) (hc : Yields c R) :
    Yields (par3 a b c) (fun r => P r.1 ∧ Q r.2.1 ∧ R r.2.2) := by
  obtain ⟨x, n, h1, hp⟩ := ha
  obtain ⟨y, k, h2, hq⟩ := hb
  obtain ⟨z, l, h3, hr⟩ := hc
  exact ⟨(x, y, z), _, h1.par3 h2 h3, hp, hq, hr⟩

end Parm
