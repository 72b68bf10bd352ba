import Verif.Proof.Ensures
import Verif.Proof.ScalarMul

/-!
# Bounds on the number of bootstraps, for arbitrary arguments

What holds of the value and of the number of bootstraps whenever a value is returned, whatever the schedule, the state
and the arguments.
-/

namespace Parm

/-- if a value is returned, it satisfies `P` and took at most `n` bootstraps -/
def Within {α : Type} (m : M α) (P : α → Prop) (n : Nat) : Prop :=
  ∀ s a s', m s = .ok (a, s') → P a ∧ s'.pbs ≤ s.pbs + n

section
variable {α β : Type} {m : M α} {P Q : α → Prop} {n : Nat}

theorem Within.ensures (h : Within m P n) : Ensures m P := fun s a s' e => (h s a s' e).1

theorem Within.pure {a : α} (h : P a) : Within (Pure.pure a) P n := by
  intro s b s' e
  have : (Pure.pure a : M α) s = .ok (a, s) := rfl
  rw [this] at e
  cases e
  exact ⟨h, by omega⟩

theorem Within.mono {n' : Nat} (h : Within m P n) (hq : ∀ a, P a → Q a) (hn : n ≤ n') : Within m Q n' :=
  fun s a s' e => ⟨hq a (h s a s' e).1, by have := (h s a s' e).2; omega⟩

theorem Within.bind {f : α → M β} {R : β → Prop} {k : Nat} (h : Within m P n)
    (hf : ∀ a, P a → Within (f a) R k) : Within (m >>= f) R (n + k) := by
  intro s b s' e
  rcases hm : m s with err | ⟨a, s1⟩
  · rw [bind_error hm] at e; cases e
  · rw [bind_ok hm] at e
    obtain ⟨h1, h2⟩ := h s a s1 hm
    obtain ⟨h3, h4⟩ := hf a h1 s1 b s' e
    exact ⟨h3, by omega⟩

theorem Within.bind0 {f : α → M β} {R : β → Prop} (h : Within m P 0)
    (hf : ∀ a, P a → Within (f a) R n) : Within (m >>= f) R n :=
  (h.bind hf).mono (fun _ h => h) (by omega)

theorem Within.panic (p : PanicKind) : Within (M.panic p) P n := by
  intro s a s' e
  have : (M.panic p : M α) s = .error (.panic p) := rfl
  rw [this] at e; cases e

theorem Within.err (p : ErrKind) : Within (M.err p) P n := by
  intro s a s' e
  have : (M.err p : M α) s = .error (.err p) := rfl
  rw [this] at e; cases e

theorem Within.ite {c : Prop} [Decidable c] {m1 m2 : M α} (h1 : c → Within m1 P n) (h2 : ¬ c → Within m2 P n) :
    Within (if c then m1 else m2) P n := by
  split
  · rename_i h; exact h1 h
  · rename_i h; exact h2 h

theorem Within.expect (h : Within m P n) : Within m.expect P n := by
  intro s a s' e
  refine h s a s' ?_
  unfold M.expect at e
  split at e
  · cases e
  · exact e

theorem Within.of_returns {a : α} (h : Returns m a n) (hp : P a) : Within m P n := by
  intro s b s' e
  obtain ⟨_, _, _, ht⟩ := h s
  rw [ht] at e
  cases e
  exact ⟨hp, le_rfl⟩

theorem Within.analysed (h : Within m P n) : Within (M.analysed m) P n := by
  intro s a s' e
  have h0 : M.analysed m s = (do
      let a ← m
      modify fun (t : St) => match t.nPbs with
        | n :: l => { t with nPbs := bumpTop n l, reports := ⟨s.pbs, t.pbs, n⟩ :: t.reports }
        | [] => t
      Pure.pure a : M α) { s with nPbs := 0 :: s.nPbs } := rfl
  rw [h0] at e
  rcases hm : m { s with nPbs := 0 :: s.nPbs } with err | ⟨b, s1⟩
  · rw [bind_error hm] at e; cases e
  · rw [bind_ok hm] at e
    obtain ⟨h1, h2⟩ := h _ b s1 hm
    have h3 : (.ok (b, match s1.nPbs with
        | n :: l => { s1 with nPbs := bumpTop n l, reports := ⟨s.pbs, s1.pbs, n⟩ :: s1.reports }
        | [] => s1) : Except Fault (α × St)) = .ok (a, s') := e
    cases h3
    refine ⟨h1, ?_⟩
    split <;> exact h2

theorem Within.call (h : Within m P n) : Within m.call P n := h.expect.analysed

theorem Within.idx {l : List α} {i : Nat} : Within (idx l i) (fun a => ∃ h : i < l.length, l[i] = a) 0 := by
  unfold Parm.idx
  by_cases h : i < l.length
  · rw [List.getElem?_eq_getElem h]
    exact Within.pure ⟨h, rfl⟩
  · rw [List.getElem?_eq_none (by omega)]
    exact Within.panic _

/-- the tasks of a region may cost differently -/
theorem Within.runTasks {f : Nat → α → M α} {P : Nat → α → Prop} {c : Nat → Nat} :
    ∀ (ord : List Nat) (arr : List α), ord.Nodup →
      (∀ i (_ : i ∈ ord) (hi : i < arr.length), Within (f i arr[i]) (P i) (c i)) →
      Within (runTasks f ord arr) (fun res => res.length = arr.length ∧
        ∀ i (hi : i < res.length), (i ∈ ord → P i res[i]) ∧ (i ∉ ord → arr[i]? = some res[i])) (ord.map c).sum
  | [], arr, _, _ => Within.pure ⟨rfl, fun i hi => ⟨fun h => by simp at h, fun _ => List.getElem?_eq_getElem hi⟩⟩
  | i :: is, arr, hnd, hf => by
    have hnot : i ∉ is := (List.nodup_cons.1 hnd).1
    unfold Parm.runTasks
    refine Within.idx.bind0 fun a ⟨hi, ha⟩ => ?_
    subst ha
    rw [List.map_cons, List.sum_cons]
    refine (hf i (by simp) hi).bind fun b hb => ?_
    refine (Within.runTasks (P := P) (c := c) is (arr.set i b) (List.nodup_cons.1 hnd).2 ?_).mono ?_ le_rfl
    · intro j hj hjl
      have hne : i ≠ j := by rintro rfl; exact hnot hj
      have := hf j (by simp [hj]) (by simpa using hjl)
      simpa [List.getElem_set, hne] using this
    · rintro res ⟨hl, hr⟩
      refine ⟨by simpa using hl, fun j hj => ?_⟩
      obtain ⟨h1, h2⟩ := hr j hj
      by_cases hji : j = i
      · subst hji
        refine ⟨fun _ => ?_, fun h => by simp at h⟩
        have := h2 hnot
        rw [List.getElem?_set_self (by simpa using hi)] at this
        injection this with this
        rw [← this]; exact hb
      · refine ⟨fun h => h1 (by simpa [hji] using h), fun h => ?_⟩
        have := h2 (by simp at h; exact h.2)
        rwa [List.getElem?_set_ne (Ne.symm hji)] at this

theorem Within.nextOrder_bind {k : Nat} {f : List Nat → M α}
    (h : ∀ ord : List Nat, ord.Perm (List.range k) → Within (f ord) P n) : Within (M.nextOrder k >>= f) P n := by
  intro s a s' e
  have hp := s.sched.perm s.region k
  have : M.nextOrder k s = .ok (s.sched.order s.region k, { s with region := s.region + 1 }) := rfl
  rw [bind_ok this] at e
  exact h _ hp { s with region := s.region + 1 } a s' e

theorem Within.parFor {arr : List α} {f : Nat → α → M α} {P : Nat → α → Prop} {c : Nat → Nat}
    (h : ∀ i (hi : i < arr.length), Within (f i arr[i]) (P i) (c i)) :
    Within (parFor arr f) (fun res => res.length = arr.length ∧ ∀ i (hi : i < res.length), P i res[i])
      ((List.range arr.length).map c).sum := by
  unfold Parm.parFor
  apply Within.nextOrder_bind
  intro ord hp
  refine (Within.runTasks (c := c) ord arr (hp.nodup_iff.2 List.nodup_range) fun i _ hi => h i hi).mono ?_ ?_
  · rintro res ⟨hl, hr⟩
    exact ⟨hl, fun i hi => (hr i hi).1 (hp.mem_iff.2 (by simpa [← hl] using hi))⟩
  · exact le_of_eq (hp.map c).sum_eq

theorem Within.seqFor {arr : List α} {f : Nat → α → M α} {P : Nat → α → Prop} {c : Nat → Nat}
    (h : ∀ i (hi : i < arr.length), Within (f i arr[i]) (P i) (c i)) :
    Within (seqFor arr f) (fun res => res.length = arr.length ∧ ∀ i (hi : i < res.length), P i res[i])
      ((List.range arr.length).map c).sum := by
  unfold Parm.seqFor
  refine (Within.runTasks (c := c) _ arr List.nodup_range fun i _ hi => h i hi).mono ?_ le_rfl
  rintro res ⟨hl, hr⟩
  exact ⟨hl, fun i hi => (hr i hi).1 (by simpa [← hl] using hi)⟩

theorem sum_range_const (c n : Nat) : ((List.range n).map fun _ => c).sum = n * c := by
  induction n with
  | zero => simp
  | succ n ih => rw [List.range_succ, List.map_append, List.sum_append, ih]; simp; ring

theorem Within.par2 {a : M α} {b : M β} {Q : β → Prop} {k : Nat} (ha : Within a P n) (hb : Within b Q k) :
    Within (par2 a b) (fun r => P r.1 ∧ Q r.2) (n + k) := by
  unfold Parm.par2
  apply Within.nextOrder_bind
  intro ord _
  split
  · exact ha.bind fun x hx => (hb.bind (k := 0) fun y hy => Within.pure ⟨hx, hy⟩)
  · exact (hb.bind fun y hy => (ha.bind (k := 0) fun x hx => Within.pure ⟨hx, hy⟩)).mono (fun _ h => h) (by omega)

end

variable {S : Scheme} {pc : Cloud}

theorem Within.evalLut5Float (c : Word S.C) (lut : List Int) : Within (evalLut5Float S pc c lut) (fun _ => True) 1 := by
  unfold Parm.evalLut5Float
  split
  · refine Within.bind (P := fun _ => True) (n := 1) (k := 0) ?_ fun _ _ => ?_
    · intro s a s' e
      cases e
      exact ⟨trivial, le_rfl⟩
    · exact Within.ite (fun _ => Within.panic _) fun _ => Within.pure trivial
  · refine Within.bind0 (P := fun _ => True) ?_ fun _ _ => ?_
    · refine Within.ite (fun _ => Within.idx.mono (fun _ _ => trivial) le_rfl) fun _ =>
        Within.ite (fun _ => ?_) fun _ => Within.panic _
      exact Within.idx.bind0 fun _ _ => Within.pure trivial
    · exact Within.ite (fun _ => Within.pure trivial) fun _ => Within.pure trivial

/-- additions and subtractions, with and without refresh -/
theorem Within.addSubImpl (isAdd : Bool) (x y : Ctxt S.C) (refresh : Bool) :
    Within (addSubImpl S isAdd pc x y refresh) (fun z => z.length ≤ max x.length y.length + 1)
      ((if refresh then 2 else 1) * max x.length y.length) := by
  unfold Parm.addSubImpl
  refine Within.ite (fun _ => Within.pure ?_) fun _ => Within.ite (fun _ => Within.pure (by omega)) fun _ => ?_
  · split_ifs
    · omega
    · simp only [oppositeImpl, List.length_map]; omega
  obtain ⟨wl, hwl⟩ : ∃ wl, wl = max (x.length - lzero x) (y.length - lzero y) := ⟨_, rfl⟩
  have hwl' : wl ≤ max x.length y.length := by omega
  obtain ⟨r, hr⟩ : ∃ r, r = max (rzero x) (rzero y) := ⟨_, rfl⟩
  simp only [← hwl, ← hr]
  refine Within.ite (fun _ => Within.err _) fun hlt => ?_
  have hq : (trivCt S.C pc wl).length = wl := by simp [trivCt]
  rw [hq] at hlt
  have hdl : ((trivCt S.C pc wl).drop r).length = wl - r := by rw [List.length_drop, hq]
  have hlen : ∀ w : Ctxt S.C, w.length = wl → ((if isAdd then zipInplace (Word.add S) w y
      else zipInplace (Word.sub S) w y)).length = wl := by
    have key : ∀ (op : Word S.C → Word S.C → Word S.C) (a b : Ctxt S.C), (zipInplace op a b).length = a.length := by
      intro op a
      induction a with
      | nil => intro b; cases b <;> simp [zipInplace]
      | cons c a ih => intro b; cases b <;> simp [zipInplace, ih]
    intro w hw
    split_ifs <;> rw [key, hw]
  have hw0 : (x.take wl ++ List.replicate (wl - x.length) (encryptWordTriv S.C pc 0)).length = wl := by
    simp; omega
  have hW := hlen _ hw0
  generalize (if isAdd then zipInplace (Word.add S) (x.take wl ++ List.replicate (wl - x.length) (encryptWordTriv S.C pc 0)) y
      else zipInplace (Word.sub S) (x.take wl ++ List.replicate (wl - x.length) (encryptWordTriv S.C pc 0)) y) = w at hW ⊢
  have hmul : (if refresh then 2 else 1) * max x.length y.length =
      max x.length y.length + (if refresh then max x.length y.length else 0) := by split_ifs <;> omega
  rw [hmul]
  refine Within.bind (P := fun q : Ctxt S.C => q.length = wl - r) (n := max x.length y.length)
    (k := if refresh then max x.length y.length else 0) ?_ fun qHi hqHi => ?_
  · refine (Within.parFor (P := fun _ _ => True) (c := fun _ => 1) fun i hi => ?_).mono ?_ ?_
    · refine Within.idx.bind0 fun wi _ => Within.bind0 (P := fun _ => True) ?_ fun _ _ => Within.evalLut5Float _ _
      exact Within.ite (fun _ => Within.idx.bind0 fun _ _ => Within.pure trivial) fun _ => Within.pure trivial
    · rintro q ⟨h, _⟩; rw [h, hdl]
    · rw [sum_range_const, hdl]; omega
  · refine Within.bind0 (P := fun w' : Ctxt S.C => w'.length = wl) ?_ fun w' hw' => ?_
    · refine (Within.seqFor (P := fun _ _ => True) (c := fun _ => 0) fun i hi => ?_).mono ?_ ?_
      · refine Within.idx.bind0 fun _ _ => ?_
        exact Within.ite (fun _ => Within.idx.bind0 fun _ _ => Within.pure trivial) fun _ => Within.pure trivial
      · rintro q ⟨h, _⟩; rw [h, hW]
      · rw [sum_range_const]; omega
    · refine Within.bind (P := fun z : Ctxt S.C => z.length = wl - r)
        (n := if refresh then max x.length y.length else 0) (k := 0) ?_ fun zHi hz => ?_
      · refine Within.ite (fun hr => ?_) fun hr => Within.pure (by rw [List.length_drop, hw'])
        rw [if_pos hr]
        refine (Within.parFor (P := fun _ _ => True) (c := fun _ => 1) fun i hi => ?_).mono ?_ ?_
        · exact Within.idx.bind0 fun wi _ => Within.evalLut5Float _ _
        · rintro q ⟨h, _⟩; rw [h, hdl]
        · rw [sum_range_const, hdl]; omega
      · split
        · refine Within.pure ?_
          simp only [List.length_append, List.length_take, List.length_singleton, hw', hz]
          omega
        · exact Within.panic _

theorem Within.ctAdd (x y : Ctxt S.C) : Within (ctAdd S pc x y) (fun z => z.length ≤ max x.length y.length + 1)
    (2 * max x.length y.length) :=
  (Within.addSubImpl true x y true).call

theorem Within.reduceLoop {l : Nat} : ∀ (rows : List (Ctxt S.C)) (cur other : Ctxt S.C) {t : Nat},
    (∀ r ∈ rows, r.length ≤ l) → cur.length ≤ l + t →
    Within (reduceLoop S pc rows cur other) (fun z => z.length ≤ l + t + rows.length)
      (rows.length * (2 * (l + t + rows.length - 1)))
  | [], cur, _, t, _, h => Within.pure (by simpa using h)
  | row :: rows, cur, _, t, hr, h => by
    unfold Parm.reduceLoop
    have h1 := hr row (by simp)
    refine ((Within.ctAdd (pc := pc) cur row).bind (k := rows.length * (2 * (l + (t + 1) + rows.length - 1)))
      fun new hn => ?_).mono (Q := _) (fun _ h => h) ?_
    · exact (Within.reduceLoop rows new cur (t := t + 1) (fun r h => hr r (by simp [h])) (by omega)).mono
        (fun z hz => by rw [List.length_cons]; omega) le_rfl
    · rw [List.length_cons]
      have h2 : 2 * max cur.length row.length ≤ 2 * (l + t + (rows.length + 1) - 1) := by omega
      have h3 : l + (t + 1) + rows.length - 1 = l + t + (rows.length + 1) - 1 := by omega
      rw [h3, Nat.add_mul, Nat.one_mul]
      omega

theorem Within.reduceMulsquary {l : Nat} (rows : List (Ctxt S.C)) (hr : ∀ r ∈ rows, r.length ≤ l) :
    Within (reduceMulsquary S pc rows) (fun z => z.length ≤ l + (rows.length - 1))
      ((rows.length - 1) * (2 * (l + (rows.length - 2)))) := by
  unfold Parm.reduceMulsquary
  refine Within.idx.bind0 fun m0 ⟨h0, e0⟩ => Within.idx.bind0 fun m1 ⟨h1, e1⟩ => ?_
  have l0 := hr m0 (by rw [← e0]; exact List.getElem_mem _)
  have l1 := hr m1 (by rw [← e1]; exact List.getElem_mem _)
  have hd : (rows.drop 2).length = rows.length - 2 := by simp
  refine ((Within.ctAdd (pc := pc) m0 m1).bind fun s hs =>
    Within.reduceLoop (l := l) (t := 1) (rows.drop 2) s (emptyCt S.C) (fun r h => hr r (List.mem_of_mem_drop h))
      (by omega)).mono ?_ ?_
  · intro z hz
    rw [hd] at hz
    omega
  · rw [hd]
    obtain ⟨k, hk⟩ : ∃ k, rows.length = k + 2 := ⟨rows.length - 2, by omega⟩
    rw [hk]
    simp only [Nat.add_sub_cancel, show k + 2 - 1 = k + 1 by omega]
    have e : l + 1 + k - 1 = l + k := by omega
    rw [e, Nat.add_mul, Nat.one_mul]
    omega

/-- lengths of the intermediate results of a chain stay below `b` -/
def chainMax (b : Nat) : Asc → List Nat → Bool
  | [], _ => true
  | e :: es, ls =>
    decide (max (ls.getD e.lIdx 0) (ls.getD e.rIdx 0 + e.rShift) + 1 ≤ b) &&
      chainMax b es (ls ++ [max (ls.getD e.lIdx 0) (ls.getD e.rIdx 0 + e.rShift) + 1])

theorem Within.ascLoop {A : Arith (Ctxt S.C)} (hopp : ∀ x, A.opp x = Pure.pure (ctOpp S x))
    (hshift : ∀ x k, A.shift x k = Pure.pure (ctShift pc x k)) (hadd : ∀ x y, A.add x y = Parm.ctAdd S pc x y)
    {n b : Nat} (hb : 1 ≤ b) : ∀ (chain : Asc) (vals : List (Ctxt S.C)) (ls : List Nat), ls.length = vals.length →
    (∀ i (h : i < vals.length), vals[i].length ≤ n + ls.getD i 0 ∧ vals[i].length ≤ n + b) → chainMax b chain ls = true →
    Within (ascLoop A chain vals) (fun out => ∀ z ∈ out, z.length ≤ n + b) (chain.length * (2 * (n + b - 1)))
  | [], vals, ls, hl, h, _ => Within.pure fun z hz => by
      obtain ⟨i, hi, rfl⟩ := List.getElem_of_mem hz
      exact (h i hi).2
  | e :: es, vals, ls, hl, h, hm => by
    unfold chainMax at hm
    rw [Bool.and_eq_true, decide_eq_true_eq] at hm
    obtain ⟨hm1, hm2⟩ := hm
    unfold Parm.ascLoop
    rw [List.length_cons, Nat.add_mul, Nat.one_mul, Nat.add_comm (es.length * _)]
    refine Within.bind (P := fun out => ∃ z : Ctxt S.C, out = vals ++ [z] ∧
      z.length ≤ n + (max (ls.getD e.lIdx 0) (ls.getD e.rIdx 0 + e.rShift) + 1)) ?_ ?_
    · unfold ascStep
      refine Within.idx.bind0 fun l ⟨hl1, el⟩ => ?_
      rw [hopp]
      refine Within.bind0 (P := fun a => a = ctOpp S l) (Within.pure rfl) ?_
      rintro _ rfl
      refine Within.idx.bind0 fun r ⟨hr1, er⟩ => ?_
      rw [hshift]
      refine Within.bind0 (P := fun a => a = ctShift pc r e.rShift) (Within.pure rfl) ?_
      rintro _ rfl
      rw [hopp]
      refine Within.bind0 (P := fun a => a = ctOpp S (ctShift pc r e.rShift)) (Within.pure rfl) ?_
      rintro _ rfl
      rw [hadd]
      have hL : (if e.lPos then l else ctOpp S l).length ≤ n + ls.getD e.lIdx 0 := by
        have := (h _ hl1).1
        rw [el] at this
        split_ifs
        · exact this
        · simpa [ctOpp, oppositeImpl] using this
      have hR : (if e.rPos then ctShift pc r e.rShift else ctOpp S (ctShift pc r e.rShift)).length ≤
          n + (ls.getD e.rIdx 0 + e.rShift) := by
        have := (h _ hr1).1
        rw [er] at this
        have h' : (ctShift pc r e.rShift).length ≤ n + (ls.getD e.rIdx 0 + e.rShift) := by
          rw [length_ctShift]; omega
        split_ifs
        · exact h'
        · simpa [ctOpp, oppositeImpl] using h'
      refine ((Within.ctAdd (pc := pc) _ _).bind (k := 0) (R := fun out => ∃ z : Ctxt S.C, out = vals ++ [z] ∧
        z.length ≤ n + (max (ls.getD e.lIdx 0) (ls.getD e.rIdx 0 + e.rShift) + 1)) fun z hz => Within.pure ⟨z, rfl, ?_⟩).mono
        (fun _ h => h) ?_
      · omega
      · omega
    · rintro _ ⟨z, rfl, hz⟩
      refine Within.ascLoop hopp hshift hadd hb es (vals ++ [z]) _ (by simp [hl]) ?_ hm2
      intro i hi
      by_cases hiv : i < vals.length
      · rw [List.getElem_append_left hiv, List.getD_append _ _ _ _ (by omega)]
        exact h i hiv
      · have : i = vals.length := by simp at hi; omega
        subst this
        rw [List.getElem_append_right (by omega), List.getD_append_right _ _ _ _ (by omega)]
        simp only [hl, Nat.sub_self, List.getElem_singleton, List.getD_cons_zero]
        exact ⟨hz, by omega⟩

theorem Within.ascEval {A : Arith (Ctxt S.C)} (hopp : ∀ x, A.opp x = Pure.pure (ctOpp S x))
    (hshift : ∀ x k, A.shift x k = Pure.pure (ctShift pc x k)) (hadd : ∀ x y, A.add x y = Parm.ctAdd S pc x y)
    {b : Nat} (hb : 1 ≤ b) {chain : Asc} (hm : chainMax b chain [0] = true) (x : Ctxt S.C) :
    Within (ascEval A chain x) (fun z => z.length ≤ x.length + b) (chain.length * (2 * (x.length + b - 1))) := by
  unfold Parm.ascEval
  refine ((Within.ascLoop (n := x.length) hopp hshift hadd hb chain [x] [0] rfl (fun i h => ?_) hm).bind (k := 0)
    fun vals hv => ?_).mono (fun _ h => h) (by omega)
  · have : i = 0 := by simpa using h
    subst this
    simp
  · split
    · rename_i z hz
      exact Within.pure (hv z (List.mem_of_getLast? hz))
    · exact Within.panic _

end Parm
