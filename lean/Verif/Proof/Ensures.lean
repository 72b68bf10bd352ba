import Verif.Proof.Monad

/-!
# Partial correctness

What holds of the value whenever one is returned, whatever the schedule and the state.
-/

namespace Parm

/-- if a value is returned, it satisfies `P` -/
def Ensures {α : Type} (m : M α) (P : α → Prop) : Prop := ∀ s a s', m s = .ok (a, s') → P a

section
variable {α β : Type} {m : M α} {P Q : α → Prop}

theorem Ensures.pure {a : α} (h : P a) : Ensures (Pure.pure a) P := by
  intro s b s' e
  have : (Pure.pure a : M α) s = .ok (a, s) := rfl
  rw [this] at e
  cases e
  exact h

theorem Ensures.mono (h : Ensures m P) (hq : ∀ a, P a → Q a) : Ensures m Q :=
  fun s a s' e => hq a (h s a s' e)

theorem Ensures.bind {f : α → M β} {R : β → Prop} (h : Ensures m P) (hf : ∀ a, P a → Ensures (f a) R) :
    Ensures (m >>= f) R := by
  intro s b s' e
  rcases hm : m s with err | ⟨a, s1⟩
  · rw [bind_error hm] at e; cases e
  · rw [bind_ok hm] at e
    exact hf a (h s a s1 hm) s1 b s' e

theorem Ensures.trivial (m : M α) : Ensures m fun _ => True := fun _ _ _ _ => True.intro

theorem Ensures.panic (p : PanicKind) : Ensures (M.panic p) P := by
  intro s a s' e
  have : (M.panic p : M α) s = .error (.panic p) := rfl
  rw [this] at e; cases e

theorem Ensures.err (p : ErrKind) : Ensures (M.err p) P := by
  intro s a s' e
  have : (M.err p : M α) s = .error (.err p) := rfl
  rw [this] at e; cases e

theorem Ensures.ite {c : Prop} [Decidable c] {m1 m2 : M α} (h1 : c → Ensures m1 P) (h2 : ¬ c → Ensures m2 P) :
    Ensures (if c then m1 else m2) P := by
  split
  · rename_i h; exact h1 h
  · rename_i h; exact h2 h

theorem Ensures.expect (h : Ensures m P) : Ensures m.expect P := by
  intro s a s' e
  refine h s a s' ?_
  unfold M.expect at e
  split at e
  · cases e
  · exact e

theorem Ensures.analysed (h : Ensures m P) : Ensures (M.analysed m) P := by
  unfold M.analysed
  refine (Ensures.trivial _).bind fun s0 _ => (Ensures.trivial _).bind fun _ _ => h.bind fun a ha =>
    (Ensures.trivial _).bind fun _ _ => Ensures.pure ha

theorem Ensures.call (h : Ensures m P) : Ensures m.call P := h.expect.analysed

theorem Ensures.idx {l : List α} {i : Nat} : Ensures (idx l i) fun a => ∃ h : i < l.length, l[i] = a := by
  unfold Parm.idx
  by_cases h : i < l.length
  · rw [List.getElem?_eq_getElem h]
    exact Ensures.pure ⟨h, rfl⟩
  · rw [List.getElem?_eq_none (by omega)]
    exact Ensures.panic _

theorem Ensures.runTasks {f : Nat → α → M α} {P : Nat → α → Prop} :
    ∀ (ord : List Nat) (arr : List α), ord.Nodup →
      (∀ i (_ : i ∈ ord) (hi : i < arr.length), Ensures (f i arr[i]) (P i)) →
      Ensures (runTasks f ord arr) fun res => res.length = arr.length ∧
        ∀ i (hi : i < res.length), (i ∈ ord → P i res[i]) ∧ (i ∉ ord → arr[i]? = some res[i])
  | [], arr, _, _ => Ensures.pure ⟨rfl, fun i hi => ⟨fun h => by simp at h, fun _ => List.getElem?_eq_getElem hi⟩⟩
  | i :: is, arr, hnd, hf => by
    have hnot : i ∉ is := (List.nodup_cons.1 hnd).1
    unfold Parm.runTasks
    refine Ensures.idx.bind fun a ⟨hi, ha⟩ => ?_
    subst ha
    refine (hf i (by simp) hi).bind fun b hb => ?_
    refine (Ensures.runTasks (P := P) is (arr.set i b) (List.nodup_cons.1 hnd).2 ?_).mono ?_
    · intro j hj hjl
      have hne : i ≠ j := by rintro rfl; exact hnot hj
      have := hf j (by simp [hj]) (by simpa using hjl)
      simpa [List.getElem_set, hne] using this
    · rintro res ⟨hl, hr⟩
      refine ⟨by simpa using hl, fun j hj => ?_⟩
      obtain ⟨h1, h2⟩ := hr j hj
      by_cases hji : j = i
      · subst hji
        refine ⟨fun _ => ?_, fun h => by simp at h⟩
        have := h2 hnot
        rw [List.getElem?_set_self (by simpa using hi)] at this
        injection this with this
        rw [← this]; exact hb
      · refine ⟨fun h => h1 (by simpa [hji] using h), fun h => ?_⟩
        have := h2 (by simp at h; exact h.2)
        rwa [List.getElem?_set_ne (Ne.symm hji)] at this

theorem Ensures.nextOrder_bind {k : Nat} {f : List Nat → M α}
    (h : ∀ ord : List Nat, ord.Perm (List.range k) → Ensures (f ord) P) : Ensures (M.nextOrder k >>= f) P := by
  intro s a s' e
  have hp := s.sched.perm s.region k
  have : M.nextOrder k s = .ok (s.sched.order s.region k, { s with region := s.region + 1 }) := rfl
  rw [bind_ok this] at e
  exact h _ hp _ a s' e

theorem Ensures.parFor {arr : List α} {f : Nat → α → M α} {P : Nat → α → Prop}
    (h : ∀ i (hi : i < arr.length), Ensures (f i arr[i]) (P i)) :
    Ensures (parFor arr f) fun res => res.length = arr.length ∧ ∀ i (hi : i < res.length), P i res[i] := by
  unfold Parm.parFor
  apply Ensures.nextOrder_bind
  intro ord hp
  refine (Ensures.runTasks ord arr (hp.nodup_iff.2 List.nodup_range) fun i _ hi => h i hi).mono ?_
  rintro res ⟨hl, hr⟩
  exact ⟨hl, fun i hi => (hr i hi).1 (hp.mem_iff.2 (by simpa [← hl] using hi))⟩

theorem Ensures.seqFor {arr : List α} {f : Nat → α → M α} {P : Nat → α → Prop}
    (h : ∀ i (hi : i < arr.length), Ensures (f i arr[i]) (P i)) :
    Ensures (seqFor arr f) fun res => res.length = arr.length ∧ ∀ i (hi : i < res.length), P i res[i] := by
  unfold Parm.seqFor
  refine (Ensures.runTasks _ arr List.nodup_range fun i _ hi => h i hi).mono ?_
  rintro res ⟨hl, hr⟩
  exact ⟨hl, fun i hi => (hr i hi).1 (by simpa [← hl] using hi)⟩

theorem Ensures.par2 {a : M α} {b : M β} {Q : β → Prop} (ha : Ensures a P) (hb : Ensures b Q) :
    Ensures (par2 a b) fun r => P r.1 ∧ Q r.2 := by
  unfold Parm.par2
  apply Ensures.nextOrder_bind
  intro ord _
  split
  · exact ha.bind fun x hx => hb.bind fun y hy => Ensures.pure ⟨hx, hy⟩
  · exact hb.bind fun y hy => ha.bind fun x hx => Ensures.pure ⟨hx, hy⟩

theorem Ensures.par3 {γ : Type} {a : M α} {b : M β} {c : M γ} {Q : β → Prop} {R : γ → Prop}
    (ha : Ensures a P) (hb : Ensures b Q) (hc : Ensures c R) :
    Ensures (par3 a b c) fun r => P r.1 ∧ Q r.2.1 ∧ R r.2.2 := by
  unfold Parm.par3
  apply Ensures.nextOrder_bind
  intro ord _
  split
  · refine ha.bind fun x hx => ?_
    split
    · exact hb.bind fun y hy => hc.bind fun z hz => Ensures.pure ⟨hx, hy, hz⟩
    · exact hc.bind fun z hz => hb.bind fun y hy => Ensures.pure ⟨hx, hy, hz⟩
  split
  · refine hb.bind fun y hy => ?_
    split
    · exact ha.bind fun x hx => hc.bind fun z hz => Ensures.pure ⟨hx, hy, hz⟩
    · exact hc.bind fun z hz => ha.bind fun x hx => Ensures.pure ⟨hx, hy, hz⟩
  · refine hc.bind fun z hz => ?_
    split
    · exact ha.bind fun x hx => hb.bind fun y hy => Ensures.pure ⟨hx, hy, hz⟩
    · exact hb.bind fun y hy => ha.bind fun x hx => Ensures.pure ⟨hx, hy, hz⟩

end

end Parm
