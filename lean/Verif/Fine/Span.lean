import Verif.Fine.Link
import Verif.Fine.Time
import Verif.Proof.Depth
import Verif.Proof.WorstCase

/-!
# Critical paths of the operations

`Short p Q d`: if `p` returns a value, the value satisfies `Q` and at most `d` bootstraps have to be
performed one after the other.
-/

namespace Parm
namespace Proc

theorem Span.bind_inv {α β : Type} {f : α → Proc β} : ∀ {p : Proc α} {b : β} {c : Nat}, Span (p.bind f) b c →
    ∃ a c1 c2, Span p a c1 ∧ Span (f a) b c2 ∧ c = c1 + c2 := by
  intro p
  induction p with
  | ret a => intro b c h; exact ⟨a, 0, c, .ret a, h, by omega⟩
  | fault e => intro b c h; cases h
  | pbs k ih =>
    intro b c h
    cases h with
    | pbs h =>
      obtain ⟨a, c1, c2, h1, h2, e⟩ := ih h
      exact ⟨a, c1 + 1, c2, .pbs h1, h2, by omega⟩
  | fork n t k _ ih =>
    intro b c h
    cases h with
    | fork ht hk =>
      obtain ⟨a, c1, c2, h1, h2, e⟩ := ih _ hk
      exact ⟨a, _, c2, .fork ht h1, h2, by omega⟩
  | both x y k _ _ ih =>
    intro b c h
    cases h with
    | both hx hy hk =>
      obtain ⟨a, c1, c2, h1, h2, e⟩ := ih _ _ hk
      exact ⟨a, _, c2, .both hx hy h1, h2, by omega⟩

theorem Span.of_expect {α : Type} : ∀ {p : Proc α} {a : α} {c : Nat}, Span p.expect a c → Span p a c := by
  intro p
  induction p with
  | ret a => intro b c h; exact h
  | fault e => intro b c h; cases h
  | pbs k ih => intro b c h; cases h with | pbs h => exact .pbs (ih h)
  | fork n t k _ ih => intro b c h; cases h with | fork ht hk => exact .fork ht (ih _ hk)
  | both x y k _ _ ih => intro b c h; cases h with | both hx hy hk => exact .both hx hy (ih _ _ hk)

end Proc

namespace Fine
open Proc (Span Eval)

/-- see the head of the file -/
structure Short {α : Type} (p : P α) (Q : α → Prop) (d : Nat) : Prop where
  out : ∀ a c, Span p a c → Q a ∧ c ≤ d

namespace Short
section
variable {α β : Type} {p : P α} {Q Q₀ : α → Prop} {d : Nat}

theorem of_within {m : M α} (h : Runs p m) (hw : Within m Q d) : Short p Q d := by
  refine ⟨fun a c hs => ?_⟩
  obtain ⟨n, he⟩ := hs.eval
  have ho := h.out (St.init .seq)
  rcases hm : m (St.init .seq) with e | ⟨b, s'⟩
  · rw [hm] at ho
    exact absurd he (Proc.Bad.not_eval ho)
  · rw [hm] at ho
    obtain ⟨n', h1, h2⟩ := ho
    obtain ⟨hq, hn⟩ := hw _ _ _ hm
    obtain ⟨rfl, rfl⟩ := Eval.unique h2 he
    obtain ⟨c', hc, hs'⟩ := h2.span
    obtain ⟨_, rfl⟩ := hs.unique hs'
    exact ⟨hq, by omega⟩

theorem and_of {m : M α} (h : Short p Q₀ d) (hr : Runs p m) (hw : Ensures m Q) : Short p (fun a => Q₀ a ∧ Q a) d := by
  refine ⟨fun a c hs => ?_⟩
  obtain ⟨h1, h2⟩ := h.out a c hs
  obtain ⟨n, he⟩ := hs.eval
  have ho := hr.out (St.init .seq)
  rcases hm : m (St.init .seq) with e | ⟨b, s'⟩
  · rw [hm] at ho
    exact absurd he (Proc.Bad.not_eval ho)
  · rw [hm] at ho
    obtain ⟨n', _, h4⟩ := ho
    obtain ⟨rfl, rfl⟩ := Eval.unique h4 he
    exact ⟨⟨h1, hw _ _ _ hm⟩, h2⟩

theorem mono {d' : Nat} (h : Short p Q₀ d) (hq : ∀ a, Q₀ a → Q a) (hd : d ≤ d') : Short p Q d' :=
  ⟨fun a c hs => ⟨hq a (h.out a c hs).1, (h.out a c hs).2.trans hd⟩⟩

theorem pure {a : α} (h : Q a) : Short (Pure.pure a) Q d :=
  ⟨fun b c hs => by
    obtain ⟨rfl, rfl⟩ := Proc.span_ret (show Span (Proc.ret a) b c from hs)
    exact ⟨h, Nat.zero_le _⟩⟩

theorem panic (k : PanicKind) : Short (P.panic k) Q d :=
  ⟨fun b c hs => by cases (show Span (Proc.fault _) b c from hs)⟩

theorem err (k : ErrKind) : Short (P.err k) Q d :=
  ⟨fun b c hs => by cases (show Span (Proc.fault _) b c from hs)⟩

theorem bind {f : α → Fine.P β} {R : β → Prop} {e : Nat} (h : Short p Q d) (hf : ∀ a, Q a → Short (f a) R e) :
    Short (p >>= f) R (d + e) := by
  refine ⟨fun b c hs => ?_⟩
  obtain ⟨a, c1, c2, h1, h2, rfl⟩ := Span.bind_inv (show Span (Proc.bind p f) b c from hs)
  obtain ⟨q1, l1⟩ := h.out _ _ h1
  obtain ⟨q2, l2⟩ := (hf a q1).out _ _ h2
  exact ⟨q2, by omega⟩

theorem bind0 {f : α → Fine.P β} {R : β → Prop} {e : Nat} (h : Short p Q 0) (hf : ∀ a, Q a → Short (f a) R e) :
    Short (p >>= f) R e := (h.bind hf).mono (fun _ h => h) (by omega)

theorem ite {c : Prop} [Decidable c] {p q : Fine.P α} (h1 : c → Short p Q d) (h2 : ¬ c → Short q Q d) :
    Short (if c then p else q) Q d := by
  split
  · rename_i h; exact h1 h
  · rename_i h; exact h2 h

theorem expect (h : Short p Q d) : Short (P.expect p) Q d :=
  ⟨fun a c hs => h.out a c (Span.of_expect (show Span (Proc.expect p) a c from hs))⟩

theorem call (h : Short p Q d) : Short (P.call p) Q d := h.expect

theorem idx {l : List α} {i : Nat} : Short (Fine.idx l i) (fun a => ∃ h : i < l.length, l[i] = a) 0 :=
  of_within (Runs.idx _ _) Within.idx

theorem parFor {arr : List α} {f : Nat → α → Fine.P α} {R : Nat → α → Prop}
    (h : ∀ i (hi : i < arr.length), Short (f i arr[i]) (R i) d) :
    Short (Fine.parFor arr f) (fun res => res.length = arr.length ∧ ∀ i (hi : i < res.length), R i res[i]) d := by
  refine ⟨fun a c hs => ?_⟩
  have hs : Span (Proc.fork arr.length (fun i => f i.val arr[i]) fun r => Proc.ret (List.ofFn r)) a c := hs
  cases hs with
  | fork ht hk =>
    obtain ⟨rfl, rfl⟩ := Proc.span_ret hk
    refine ⟨⟨by simp, fun i hi => ?_⟩, ?_⟩
    · simp only [List.length_ofFn] at hi
      simpa using ((h i hi).out _ _ (ht ⟨i, hi⟩)).1
    · rw [Nat.add_zero]
      exact Finset.sup_le fun i _ => ((h i.1 i.2).out _ _ (ht i)).2

theorem par2 {a : Fine.P α} {b : Fine.P β} {Q' : β → Prop} {e : Nat} (ha : Short a Q d) (hb : Short b Q' e) :
    Short (Fine.par2 a b) (fun r => Q r.1 ∧ Q' r.2) (max d e) := by
  refine ⟨fun r c hs => ?_⟩
  have hs : Span (Proc.both a b fun x y => Proc.ret (x, y)) r c := hs
  cases hs with
  | both hx hy hk =>
    obtain ⟨rfl, rfl⟩ := Proc.span_ret hk
    obtain ⟨h1, l1⟩ := ha.out _ _ hx
    obtain ⟨h2, l2⟩ := hb.out _ _ hy
    exact ⟨⟨h1, h2⟩, by omega⟩

theorem par3 {γ : Type} {a : Fine.P α} {b : Fine.P β} {x : Fine.P γ} {Q' : β → Prop} {R : γ → Prop} {e f : Nat}
    (ha : Short a Q d) (hb : Short b Q' e) (hc : Short x R f) :
    Short (Fine.par3 a b x) (fun r => Q r.1 ∧ Q' r.2.1 ∧ R r.2.2) (max d (max e f)) := by
  refine ⟨fun r c hs => ?_⟩
  have hs : Span (Proc.both a (Fine.par2 b x) fun x y => Proc.ret (x, y)) r c := hs
  cases hs with
  | both hx hy hk =>
    obtain ⟨rfl, rfl⟩ := Proc.span_ret hk
    obtain ⟨h1, l1⟩ := ha.out _ _ hx
    obtain ⟨h2, l2⟩ := (par2 hb hc).out _ _ hy
    exact ⟨⟨h1, h2⟩, by omega⟩

end

variable {S : Scheme} {pc : Cloud} {x y : Ctxt S.C}

/-- no information about the value -/
abbrev Any {α : Type} : α → Prop := fun _ => True

theorem lutFloat (c : Word S.C) (lut : List Int) : Short (evalLut5Float S pc c lut) Any 1 :=
  of_within (Runs.evalLut5Float S pc c lut) (Within.evalLut5Float c lut)
theorem lut (c : Word S.C) (lut : List Nat) : Short (evalLut5Uint S pc c lut) Any 1 :=
  of_within (Runs.evalLut5Uint S pc c lut) (Within.evalLut5Uint c lut)

theorem any {α : Type} {p : Fine.P α} {Q : α → Prop} {d : Nat} (h : Short p Q d) : Short p Any d :=
  h.mono (fun _ _ => trivial) le_rfl

/-! ### Additions -/

theorem seqFor0 {α : Type} {arr : List α} {f : Nat → α → Fine.P α} (h : ∀ i a, Short (f i a) Any 0) :
    Short (Fine.seqFor arr f) Any 0 := by
  have key : ∀ (ord : List Nat) (arr : List α), Short (Fine.runTasks f ord arr) Any 0 := by
    intro ord
    induction ord with
    | nil => intro arr; exact pure trivial
    | cons i is ih => intro arr; exact idx.bind0 fun a _ => (h i a).bind0 fun b _ => ih _
  exact key _ _

theorem addSub (isAdd refresh : Bool) :
    Short (addSubImpl S isAdd pc x y refresh) (fun z => z.length ≤ max x.length y.length + 1) (if refresh then 2 else 1) := by
  have hr := Runs.addSubImpl S pc isAdd x y refresh
  refine (Short.mono (Q₀ := fun a => Any a ∧ a.length ≤ max x.length y.length + 1) ?_ (fun _ h => h.2) le_rfl)
  refine and_of ?_ hr (Within.addSubImpl isAdd x y refresh).ensures
  unfold addSubImpl
  refine ite (fun _ => pure trivial) fun _ => ite (fun _ => pure trivial) fun _ => ite (fun _ => err _) fun _ => ?_
  have h2 : (if refresh then 2 else 1) = 1 + (if refresh then 1 else 0) := by cases refresh <;> rfl
  rw [h2]
  refine bind (parFor (R := fun _ => Any) fun i hi => ?_) fun qHi _ => ?_
  · refine idx.bind0 fun _ _ => bind0 (Q := Any) ?_ fun _ _ => lut _ _
    exact ite (fun _ => idx.bind0 fun _ _ => pure trivial) fun _ => pure trivial
  · refine bind0 (seqFor0 fun i a => ?_) fun w _ => ?_
    · exact idx.bind0 fun _ _ => ite (fun _ => idx.bind0 fun _ _ => pure trivial) fun _ => pure trivial
    · refine (bind (Q := Any) (e := 0) ?_ fun zHi _ => ?_ : Short _ _ ((if refresh then 1 else 0) + 0))
      · cases refresh
        · exact pure trivial
        · rw [if_pos rfl, if_pos rfl]
          exact any (parFor (R := fun _ => Any) fun i hi => idx.bind0 fun _ _ => lut _ _)
      · split
        · exact pure trivial
        · exact panic _

theorem ctAdd : Short (Fine.ctAdd S pc x y) (fun z => z.length ≤ max x.length y.length + 1) 2 :=
  (addSub true true).call
theorem ctSub : Short (Fine.ctSub S pc x y) (fun z => z.length ≤ max x.length y.length + 1) 2 :=
  (addSub false true).call
theorem ctAddNoisy : Short (Fine.ctAddNoisy S pc x y) (fun z => z.length ≤ max x.length y.length + 1) 1 :=
  (addSub true false).call
theorem ctSubNoisy : Short (Fine.ctSubNoisy S pc x y) (fun z => z.length ≤ max x.length y.length + 1) 1 :=
  (addSub false false).call

theorem i64Op (b : Build) (k : Int) : Short (Fine.i64Op b k) Any 0 := by
  unfold Fine.i64Op
  refine ite (fun _ => pure trivial) fun _ => ?_
  cases b
  · exact panic _
  · exact pure trivial

theorem i32Op (b : Build) (k : Int) : Short (Fine.i32Op b k) Any 0 := by
  unfold Fine.i32Op
  refine ite (fun _ => pure trivial) fun _ => ?_
  cases b
  · exact panic _
  · exact pure trivial

theorem ctAddConst (k : Int) : Short (Fine.ctAddConst S pc x k) Any 2 := by
  unfold Fine.ctAddConst addConstImpl
  exact call (ite (fun _ => pure trivial) fun _ => (i64Op _ _).bind0 fun _ _ => ctAdd.any)

/-! ### Sign, maximum, rounding -/

open Wt (firstDepth recDepth clog_round)

theorem sgnFirst (j : Nat) (b : Word S.C) : Short (Fine.sgnFirst S pc x j b) Any (firstDepth pc) := by
  unfold Fine.sgnFirst
  have hstep : ∀ (i : Nat) (b : Word S.C), Short (if sgnGamma * j + i < x.length then do
      let xi ← Fine.idx x (sgnGamma * j + i)
      let xi := if i = 0 then xi else Word.mulConst S xi (2 ^ i : Nat)
      Pure.pure (Word.add S b xi)
    else Pure.pure b : Fine.P (Word S.C)) Any 0 := by
    intro i b
    exact ite (fun _ => idx.bind0 fun _ _ => pure trivial) fun _ => pure trivial
  refine bind (e := 0) (Q := Any) ?_ fun b _ => (hstep 0 b).bind0 fun b _ => (hstep 1 b).bind0 fun b _ => hstep 2 b
  refine ite (fun _ => idx.bind0 fun _ _ => ?_) fun _ => pure trivial
  refine (bind (d := firstDepth pc) (e := 0) (Q := Any) ?_ fun _ _ => pure trivial : Short _ Any (firstDepth pc + 0))
  by_cases h : 85 ≤ pc.params.quadWeight
  · rw [if_pos h]; exact pure trivial
  · rw [if_neg h, show firstDepth pc = 1 from if_neg h]; exact lut _ _

theorem sgnNext (j : Nat) (b : Word S.C) : Short (Fine.sgnNext S pc x j b) Any 1 := by
  unfold Fine.sgnNext
  refine bind (e := 0) (parFor (R := fun _ => Any) fun i hi => ?_) fun _ _ => pure trivial
  exact ite (fun _ => idx.bind0 fun _ _ => lut _ _) fun _ => pure trivial

theorem sgnRec_next : ∀ (fuel : Nat) (x : Ctxt S.C),
    Short (sgnRecursionRaw S pc fuel x false) Any (Nat.clog 4 x.length) := by
  intro fuel
  induction fuel with
  | zero =>
    intro x
    unfold sgnRecursionRaw
    exact ite (fun _ => pure trivial) fun _ => ite (fun _ => pure trivial) fun _ => panic _
  | succ fuel ih =>
    intro x
    unfold sgnRecursionRaw
    refine ite (fun _ => pure trivial) fun h0 => ite (fun _ => pure trivial) fun h1 => ?_
    have hc : Nat.clog 4 x.length = 1 + Nat.clog 4 ((x.length - 1) / 4 + 1) := by
      rw [clog_round (by omega), Nat.add_comm]
    rw [hc]
    refine bind (parFor (R := fun _ => Any) fun j hj => ?_) fun b hb => ?_
    · exact ite (fun h => by cases h) fun _ => sgnNext j _
    · have : b.length = (x.length - 1) / 4 + 1 := by rw [hb.1]; simp [trivCt, sgnGamma]
      rw [← this]
      exact ih b

theorem sgnRec (fuel : Nat) : Short (sgnRecursionRaw S pc fuel x true) Any (recDepth pc x.length) := by
  cases fuel with
  | zero =>
    unfold sgnRecursionRaw
    exact ite (fun _ => pure trivial) fun _ => ite (fun _ => pure trivial) fun _ => panic _
  | succ fuel =>
    unfold sgnRecursionRaw
    refine ite (fun _ => pure trivial) fun h0 => ite (fun _ => pure trivial) fun h1 => ?_
    unfold recDepth
    rw [if_neg (by omega)]
    refine bind (parFor (R := fun _ => Any) fun j hj => ?_) fun b hb => ?_
    · exact ite (fun h => sgnFirst j _) fun h => absurd rfl h
    · have hc := clog_round (n := x.length) (by omega)
      have : b.length = (x.length - 1) / 4 + 1 := by rw [hb.1]; simp [trivCt, sgnGamma]
      exact (sgnRec_next fuel b).mono (fun _ h => h) (by rw [this]; omega)

/-- critical path of the sign of `n` words -/
def sgnSpan (pc : Cloud) (n : Nat) : Nat := if n ≤ 1 then 0 else firstDepth pc + Nat.clog 4 n

theorem sgn : Short (Fine.ctSgn S pc x) Any (sgnSpan pc x.length) := by
  unfold Fine.ctSgn sgnImpl sgnSpan
  refine call (ite (fun _ => pure trivial) fun h0 => ite (fun _ => pure trivial) fun h1 => ?_)
  have hc := clog_round (n := x.length) (by omega)
  refine (bind (R := Any) (e := 1) (sgnRec _) fun s _ => idx.bind0 fun _ _ => ?_).mono (fun _ h => h) ?_
  · exact bind (e := 0) (lut _ _) fun _ _ => pure trivial
  · unfold recDepth
    rw [if_neg (by omega), if_neg (by omega)]
    omega

/-- critical path of the selection that follows the sign in `max_impl` -/
def pickSpan (pc : Cloud) : Nat := if 41 ≤ pc.params.quadWeight then 2 else 3

theorem recDepth_mono {a b : Nat} (h : a ≤ b) : recDepth pc a ≤ recDepth pc b := by
  unfold recDepth
  split
  · omega
  · rw [if_neg (by omega)]
    have := Nat.clog_mono_right 4 h
    omega

theorem maxImpl {N e : Nat} (hs : Short (Fine.ctSub S pc x y) (fun r => r.length ≤ N) e) :
    Short (Fine.maxImpl S pc x y) Any (e + recDepth pc N + pickSpan pc) := by
  unfold Fine.maxImpl
  rw [Nat.add_assoc]
  refine bind hs fun r hr => bind ((sgnRec _).mono (fun _ h => h) (recDepth_mono hr)) fun s _ => idx.bind0 fun s0 _ => ?_
  have hp : pickSpan pc = 1 + ((if 41 ≤ pc.params.quadWeight then 0 else 1) + 1) := by
    unfold pickSpan; split <;> rfl
  rw [hp]
  refine bind (Q := Any) ?_ fun h _ => any (parFor (R := fun _ => Any) fun i hi => ?_)
  · unfold pbsNonneg
    exact bind (e := 0) (lutFloat _ _) fun _ _ => pure trivial
  · refine idx.bind0 fun _ _ => idx.bind0 fun _ _ => bind (Q := Any) ?_ fun _ _ => lut _ _
    by_cases h : 41 ≤ pc.params.quadWeight
    · rw [if_pos h, if_pos h]; exact pure trivial
    · rw [if_neg h, if_neg h]; exact lut _ _

theorem max : Short (Fine.ctMax S pc x y) Any (2 + recDepth pc (Max.max x.length y.length + 1) + pickSpan pc) :=
  (maxImpl ctSub).call

theorem relu : Short (Fine.ctRelu S pc x) Any (recDepth pc x.length + pickSpan pc) := by
  have h0 : Short (Fine.ctSub S pc (ctZero S.C) x) (fun r => r.length ≤ x.length) 0 := by
    refine call ?_
    unfold addSubImpl
    exact ite (fun _ => pure (by simp [oppositeImpl])) fun h => absurd rfl h
  exact (((maxImpl h0).mono (fun _ h => h) (by omega)).call)

theorem roundAt (pos : Nat) : Short (Fine.ctRoundAt S pc x pos) Any (sgnSpan pc (pos - 1) + 3) := by
  unfold Fine.ctRoundAt roundAtImpl
  refine call (ite (fun _ => pure trivial) fun _ => ite (fun _ => pure trivial) fun h => ?_)
  have hl : (x.take (pos - 1)).length = pos - 1 := by simp; omega
  refine bind (Q := Any) ?_ fun s _ => idx.bind0 fun xp _ => bind0 (Q := Any) ?_ fun _ _ => ?_
  rotate_left 2
  · exact (bind (lut _ _) fun _ _ => ctAdd.any : Short _ _ (1 + 2))
  · have := sgn (pc := pc) (x := x.take (pos - 1))
    rwa [hl] at this
  · exact ite (fun _ => idx.bind0 fun _ _ => pure trivial) fun _ => pure trivial

/-! ### Multiplication and squaring -/

theorem fillMulary : Short (Fine.fillMulary S pc x y) (fun m => m.length = y.length) 1 := by
  unfold Fine.fillMulary
  refine ite (fun _ => panic _) fun hl => (parFor (R := fun _ => Any) fun j hj => ?_).mono (fun m hm => ?_) le_rfl
  · refine idx.bind0 fun _ _ => bind (e := 0) (parFor (R := fun _ => Any) fun i hi => ?_) fun _ _ => pure trivial
    exact idx.bind0 fun _ _ => expect (of_within (Runs.mulLwe S pc _ _) (Within.mulLwe _ _))
  · rw [hm.1]; simp; omega

theorem reduceLoop : ∀ (rows : List (Ctxt S.C)) (cur other : Ctxt S.C),
    Short (Fine.reduceLoop S pc rows cur other) Any (2 * rows.length)
  | [], _, _ => pure trivial
  | row :: rows, cur, other => by
    unfold Fine.reduceLoop
    rw [List.length_cons, show 2 * (rows.length + 1) = 2 + 2 * rows.length by omega]
    exact bind ctAdd fun z _ => reduceLoop rows _ _

theorem reduce (rows : List (Ctxt S.C)) : Short (Fine.reduceMulsquary S pc rows) Any (2 * (rows.length - 1)) := by
  unfold Fine.reduceMulsquary
  refine idx.bind0 fun m0 ⟨h0, _⟩ => idx.bind0 fun m1 ⟨h1, _⟩ => ?_
  refine (bind ctAdd fun z _ => reduceLoop _ _ _).mono (fun _ h => h) ?_
  rw [List.length_drop]; omega

theorem karatsuba {f : Ctxt S.C → Ctxt S.C → Fine.P (Ctxt S.C)} {n : Nat} (hn : x.length = n) (hn2 : 2 ≤ n)
    (hf : ∀ a b, Short (f a b) Any (2 * Max.max a.length b.length - 1)) :
    Short (Fine.mulKaratsuba S pc f x y) Any (2 * ((n + 1) / 2) + 9) := by
  unfold Fine.mulKaratsuba
  refine ite (fun _ => panic _) fun hxy => ?_
  obtain ⟨k, hk⟩ : ∃ k, k = (x.length + 1) / 2 := ⟨_, rfl⟩
  simp only [← hk]
  rw [← hn, ← hk]
  have hk1 : 1 ≤ k := by omega
  have lx0 : (x.take k).length = k := by simp; omega
  have ly0 : (y.take k).length = k := by simp; omega
  have lx1 : (x.drop k).length ≤ k := by simp; omega
  have ly1 : (y.drop k).length ≤ k := by simp; omega
  refine (bind (d := 2 * k + 3) (e := 6) (Q := Any) ?_ ?_ : Short _ _ (2 * k + 3 + 6))
  · refine (par2 (Q := Any) (Q' := Any) (d := 2 * k + 3) (e := 2 * k + 3) ?_ ?_).mono (fun _ _ => trivial) (by omega)
    · refine (bind (Q := Any) (d := 2 * k) (e := 2) ((par2 (hf _ _) (hf _ _)).mono (fun _ _ => trivial) (by omega)) ?_).mono
        (fun _ h => h) (by omega)
      rintro ⟨a, b⟩ _
      exact bind (e := 0) ctAdd fun _ _ => pure trivial
    · refine (bind (d := 2) (e := 2 * k + 1) (Q := fun r : Ctxt S.C × Ctxt S.C => r.1.length ≤ k + 1 ∧ r.2.length ≤ k + 1)
        ?_ ?_).mono (fun _ h => h) (by omega)
      · refine (par2 ctAdd ctAdd).mono (fun r hr => ?_) (by omega)
        obtain ⟨h1, h2⟩ := hr
        constructor <;> omega
      · rintro ⟨a, b⟩ ⟨h1, h2⟩
        simp only at h1 h2 ⊢
        exact (bind (e := 0) (hf a b) fun _ _ => pure trivial).mono (fun _ h => h) (by omega)
  · rintro ⟨⟨a, b, c⟩, e⟩ _
    refine (bind ctAdd fun z _ => ?_ : Short _ _ (2 + 4))
    exact ite (fun _ => ctAdd.mono (fun _ _ => trivial) (by omega)) fun _ => (bind ctAdd fun _ _ => ctAdd.any : Short _ _ (2 + 2))

/-- critical path of the product of `n` words -/
def mulSpan (n : Nat) : Nat := if n < 18 then 2 * n - 1 else n + 10

theorem mulImpl : ∀ (fuel : Nat) (x y : Ctxt S.C),
    Short (Fine.mulImpl S pc fuel x y) Any (2 * Max.max x.length y.length - 1) ∧
    (18 ≤ Max.max x.length y.length → Short (Fine.mulImpl S pc fuel x y) Any (Max.max x.length y.length + 10)) := by
  have base : ∀ (x y : Ctxt S.C) (r : Fine.P (Ctxt S.C)) {d : Nat}, (16 ≤ Max.max x.length y.length → Short r Any d) →
      (Max.max x.length y.length < 18 → 2 * Max.max x.length y.length - 1 ≤ d) →
      let xi := (mulAlign S pc x y).1
      let yi := (mulAlign S pc x y).2
      Short (if xi.length = 0 then Pure.pure (ctZero S.C) else if xi.length = 1 then mul1word S pc xi yi
        else if xi.length < 16 ∨ xi.length = 17 then mulSchoolbook S pc xi yi
        else if xi.length ≤ 32 then r else P.err .mulTooLong) Any d := by
    intro x y r d hr hd xi yi
    have hlx : xi.length = Max.max x.length y.length := by simp [xi, mulAlign]; omega
    have hly : yi.length = Max.max x.length y.length := by simp [yi, mulAlign]; omega
    rw [hlx]
    refine ite (fun _ => pure trivial) fun h0 => ite (fun h1 => ?_) fun h1 => ite (fun h2 => ?_) fun h2 =>
      ite (fun _ => hr (by omega)) fun _ => err _
    · unfold mul1word
      exact (bind (e := 0) fillMulary fun _ _ => idx.any).mono (fun _ h => h) (by have := hd (by omega); omega)
    · unfold mulSchoolbook
      have := hd (by omega)
      have hb : Short (Fine.fillMulary S pc xi yi >>= Fine.reduceMulsquary S pc) Any
          (1 + 2 * (Max.max x.length y.length - 1)) :=
        bind fillMulary fun m hm => by
          have := reduce (pc := pc) m
          rwa [hm, hly] at this
      exact hb.mono (fun _ h => h) (by omega)
  intro fuel
  induction fuel with
  | zero =>
    intro x y
    unfold Fine.mulImpl
    exact ⟨base x y _ (fun _ => panic _) fun _ => le_rfl, fun h => base x y _ (fun _ => panic _) fun h' => by omega⟩
  | succ fuel ih =>
    intro x y
    unfold Fine.mulImpl
    have hlx : (mulAlign S pc x y).1.length = Max.max x.length y.length := by simp [mulAlign]; omega
    have key : 16 ≤ Max.max x.length y.length → Short (Fine.mulKaratsuba S pc
        (fun a b => (Fine.mulImpl S pc fuel a b).call) (mulAlign S pc x y).1 (mulAlign S pc x y).2) Any
        (2 * ((Max.max x.length y.length + 1) / 2) + 9) := fun h =>
      karatsuba hlx (by omega) fun a b => (ih a b).1.call
    exact ⟨base x y _ (fun h => (key h).mono (fun _ h => h) (by omega)) fun _ => le_rfl,
      fun h => base x y _ (fun h => (key h).mono (fun _ h => h) (by omega)) fun h' => by omega⟩

theorem mul : Short (Fine.ctMul S pc x y) Any (mulSpan (Max.max x.length y.length)) := by
  unfold mulSpan
  split
  · exact (mulImpl _ x y).1.call
  · exact ((mulImpl _ x y).2 (by omega)).call

theorem squImpl : ∀ (fuel : Nat) (x : Ctxt S.C),
    Short (Fine.squImpl S pc fuel x) Any (2 * x.length - 1) ∧ Short (Fine.squImpl S pc fuel x) Any (x.length + 4) ∧
    (x.length ≤ 3 → Short (Fine.squImpl S pc fuel x) Any 1) := by
  have h1 : ∀ x : Ctxt S.C, Short (squ1word S pc x) Any 1 := fun x =>
    idx.bind0 fun _ _ => bind (e := 0) (lut _ _) fun _ _ => pure trivial
  have h23 : ∀ x : Ctxt S.C, Short (squ23word S pc x) Any 1 := by
    intro x
    unfold squ23word
    refine ite (fun _ => panic _) fun _ => bind0 (Q := Any) ?_ fun v _ => ?_
    · refine ite (fun _ => idx.bind0 fun _ _ => idx.bind0 fun _ _ => pure trivial) fun _ =>
        idx.bind0 fun _ _ => idx.bind0 fun _ _ => idx.bind0 fun _ _ => pure trivial
    · refine bind (e := 0) (parFor (R := fun _ => Any) fun i hi => ?_) fun _ _ => idx.bind0 fun _ _ => pure trivial
      unfold pbsSqu3
      split
      · exact lut _ _
      · exact pure trivial
      · exact lut _ _
      · exact lut _ _
      · exact lut _ _
      · exact lut _ _
      · exact panic _
  have base : ∀ (x : Ctxt S.C) (r : Fine.P (Ctxt S.C)) {d : Nat}, (4 ≤ x.length → Short r Any d) →
      (1 ≤ x.length → 1 ≤ d) →
      Short (if x.length = 0 then Pure.pure (ctZero S.C) else if x.length = 1 then squ1word S pc x
        else if x.length ≤ 3 then squ23word S pc x
        else if x.length ≤ 32 then r else P.err .squTooLong) Any d := by
    intro x r d hr hd
    exact ite (fun _ => pure trivial) fun h0 => ite (fun _ => (h1 x).mono (fun _ h => h) (hd (by omega))) fun h1 =>
      ite (fun _ => (h23 x).mono (fun _ h => h) (hd (by omega))) fun h2 => ite (fun _ => hr (by omega)) fun _ => err _
  intro fuel
  induction fuel with
  | zero =>
    intro x
    unfold Fine.squImpl
    exact ⟨base x _ (fun _ => panic _) fun _ => by omega, base x _ (fun _ => panic _) fun _ => by omega,
      fun h => base x _ (fun _ => panic _) fun _ => by omega⟩
  | succ fuel ih =>
    intro x
    unfold Fine.squImpl
    have key : 4 ≤ x.length → Short (squDnq S pc (fun a => (Fine.squImpl S pc fuel a).call) x) Any
        ((2 * ((x.length + 1) / 2) - 1) + 4) := by
      intro h4
      unfold squDnq
      obtain ⟨k, hk⟩ : ∃ k, k = (x.length + 1) / 2 := ⟨_, rfl⟩
      simp only [← hk]
      have lx0 : (x.take k).length = k := by simp; omega
      have lx1 : (x.drop k).length ≤ k := by simp; omega
      refine bind (Q := Any) ?_ ?_
      · refine (par3 (ih _).1.call (ih _).1.call (R := Any) (f := 2 * k - 1) ?_).mono (fun _ _ => trivial) ?_
        · exact (bind (e := 0) (mulImpl mulFuel _ _).1.call fun _ _ => pure trivial).mono (fun _ h => h) (by omega)
        · omega
      · rintro ⟨a, b, c⟩ _
        exact ite (fun _ => ctAdd.mono (fun _ _ => trivial) (by omega)) fun _ =>
          (bind ctAdd fun _ _ => ctAdd.any : Short _ _ (2 + 2))
    exact ⟨base x _ (fun h => (key h).mono (fun _ h => h) (by omega)) fun _ => by omega,
      base x _ (fun h => (key h).mono (fun _ h => h) (by omega)) fun _ => by omega,
      fun h => base x _ (fun h' => by omega) fun _ => by omega⟩

/-- critical path of the square of `n` words -/
def squSpan (n : Nat) : Nat := if n ≤ 3 then 1 else n + 4

theorem squ : Short (Fine.ctSqu S pc x) Any (squSpan x.length) := by
  unfold squSpan
  split
  · rename_i h; exact ((squImpl _ x).2.2 h).call
  · exact (squImpl _ x).2.1.call

/-! ### Scalar multiplication -/

theorem ascLoop : ∀ (c : Asc) (vals : List (Ctxt S.C)), Short (Fine.ascLoop (ascArith S pc) c vals) Any (2 * c.length)
  | [], _ => pure trivial
  | e :: es, vals => by
    unfold Fine.ascLoop
    rw [List.length_cons, show 2 * (es.length + 1) = 2 + 2 * es.length by omega]
    refine bind (Q := Any) ?_ fun v _ => ascLoop es v
    unfold ascStep
    refine idx.bind0 fun _ _ => bind0 (Q := Any) (pure trivial) fun _ _ => idx.bind0 fun _ _ =>
      bind0 (Q := Any) (pure trivial) fun _ _ => bind0 (Q := Any) (pure trivial) fun _ _ => ?_
    exact bind (e := 0) (ctAdd (S := S) (pc := pc)) fun _ _ => pure trivial

theorem ascEval (c : Asc) : Short (Fine.ascEval (ascArith S pc) c x) Any (2 * c.length) := by
  unfold Fine.ascEval
  refine bind (e := 0) (ascLoop c [x]) fun _ _ => ?_
  split
  · exact pure trivial
  · exact panic _

theorem mapIdx {V : Type} (m : List (Nat × V)) (k : Nat) : Short (Fine.mapIdx m k) (fun v => ∃ k', (k', v) ∈ m) 0 := by
  refine (and_of (Q₀ := Any) ?_ (Runs.mapIdx m k) Wt.Ensures_mapIdx).mono (fun _ h => h.2) le_rfl
  unfold Fine.mapIdx
  split
  · exact pure trivial
  · exact panic _

theorem windShifts (b : Build) {k : Nat} (h0 : k ≠ 0) (hk : k < 2 ^ 32) :
    Short (Fine.windShifts b k ascBitlen) (fun ws => ws.length ≤ 3) 0 := by
  have hr := Runs.windShifts b k ascBitlen
  refine (and_of (Q₀ := Any) ?_ hr (Wt.len_windShifts b k)).mono (fun _ h => h.2) le_rfl
  refine of_within hr ?_
  obtain ⟨ws, w1, _⟩ := windShifts_spec h0 hk (bitlen := ascBitlen) (by decide) (by decide)
  cases b
  · rcases windShifts_debug h0 hk (bitlen := ascBitlen) (by decide) (by decide) with ⟨ws', e1, _⟩ | hf
    · exact Within.of_returns e1 trivial
    · intro t a t' e
      rw [hf t] at e
      cases e
  · exact Within.of_returns w1 trivial

theorem seqFor_len {α : Type} {arr : List α} {f : Nat → α → Fine.P α} (h : ∀ i a, Short (f i a) Any 0) :
    Short (Fine.seqFor arr f) (fun r => r.length = arr.length) 0 := by
  have key : ∀ (ord : List Nat) (arr : List α), Short (Fine.runTasks f ord arr) (fun r => r.length = arr.length) 0 := by
    intro ord
    induction ord with
    | nil => intro arr; exact pure rfl
    | cons i is ih =>
      intro arr
      exact idx.bind0 fun a _ => (h i a).bind0 fun b _ => (ih _).mono (fun r hr => by simpa using hr) le_rfl
  exact key _ _

theorem scalarMul {L : Nat} (hL : ∀ e ∈ pc.asc, e.2.length ≤ L) (k : Int) :
    Short (Fine.ctScalarMul S pc k x) Any (2 * L + 4) := by
  unfold Fine.ctScalarMul scalarMulImpl
  refine call ((i32Op _ _).bind0 fun ka _ => ?_)
  have hlt : (wrapU32 ka).toNat < 2 ^ 32 := by
    have h1 : 0 ≤ wrapU32 ka := by unfold wrapU32; omega
    have h2 : wrapU32 ka < 4294967296 := by unfold wrapU32; omega
    omega
  generalize (wrapU32 ka).toNat = kk at hlt
  refine ite (fun _ => pure trivial) fun h0 => ite (fun _ => pure trivial) fun _ => ?_
  refine (windShifts _ h0 hlt).bind0 fun ws hws => ?_
  refine bind (Q := Any) ?_ fun map _ => ?_
  · refine any (parFor (R := fun _ => Any) fun i hi => (mapIdx _ _).bind0 fun c hc => ?_)
    obtain ⟨k', hc⟩ := hc
    exact (bind (e := 0) (ascEval c).expect fun _ _ => pure trivial).mono (fun _ h => h) (by have := hL _ hc; simp only at this; omega)
  · refine bind0 (seqFor_len fun i a => ?_) fun rows hrows => ?_
    · exact idx.bind0 fun _ _ => (mapIdx _ _).bind0 fun _ _ => ite (fun _ => pure trivial) fun _ => pure trivial
    · rw [List.length_replicate] at hrows
      exact ite (fun _ => idx.any.mono (fun _ h => h) (by omega)) fun _ => (reduce rows).mono (fun _ h => h) (by omega)

end Short
end Fine
end Parm
