import Verif.Fine.Span
import Verif.Proof.WorstProg
import Verif.SpecSpan
import Verif.Props.Depth

/-!
# Critical paths of programs and networks

`Spans R p m`: whatever `p` and `m` return is related by `R`, and `m` counts at least as many bootstraps as
`p` has on its critical path.
-/

namespace Parm
namespace Fine
open Proc (Span Eval)

/-- see the head of the file -/
structure Spans {α β : Type} (R : α → β → Prop) (p : P α) (m : M β) : Prop where
  out : ∀ a c t b t', Span p a c → m t = .ok (b, t') → R a b ∧ c + t.pbs ≤ t'.pbs

namespace Spans
section
variable {α β α' β' : Type} {R : α → β → Prop} {R' : α' → β' → Prop} {p : P α} {m : M β}

theorem pure {a : α} {b : β} (h : R a b) : Spans R (Pure.pure a) (Pure.pure b) := by
  refine ⟨fun a' c t b' t' h1 h2 => ?_⟩
  obtain ⟨rfl, rfl⟩ := Proc.span_ret (show Span (Proc.ret a) a' c from h1)
  injection h2 with h2
  injection h2 with h2 h2'
  subst h2 h2'
  exact ⟨h, by omega⟩

theorem panic (k : PanicKind) : Spans R p (M.panic k) := ⟨fun a c t b t' _ h => by cases h⟩

theorem costing {R : α → Nat → Prop} {d l : Nat} (h : Short p (fun a => R a l) d) : Spans R p (Parm.costing d l) := by
  refine ⟨fun a c t b t' h1 h2 => ?_⟩
  injection h2 with h2
  injection h2 with h2 h2'
  subst h2 h2'
  obtain ⟨h3, h4⟩ := h.out a c h1
  exact ⟨h3, by show _ ≤ t.pbs + d; omega⟩

theorem of_short {b : β} (h : Short p (fun a => R a b) 0) : Spans R p (Pure.pure b) := by
  refine ⟨fun a c t b t' h1 h2 => ?_⟩
  injection h2 with h2
  injection h2 with h2 h2'
  subst h2 h2'
  obtain ⟨h3, h4⟩ := h.out a c h1
  exact ⟨h3, by omega⟩

theorem bind {f : α → P α'} {g : β → M β'} (h : Spans R p m) (hf : ∀ a b, R a b → Spans R' (f a) (g b)) :
    Spans R' (p >>= f) (m >>= g) := by
  refine ⟨fun a c t b t' h1 h2 => ?_⟩
  obtain ⟨a1, c1, c2, s1, s2, rfl⟩ := Span.bind_inv (show Span (Proc.bind p f) a c from h1)
  simp only [Bind.bind, StateT.bind, Except.bind] at h2
  cases e2 : m t with
  | error _ => rw [e2] at h2; cases h2
  | ok q =>
    rw [e2] at h2
    obtain ⟨h3, h4⟩ := h.out _ _ _ q.1 q.2 s1 e2
    obtain ⟨h5, h6⟩ := (hf a1 q.1 h3).out _ _ q.2 b t' s2 h2
    exact ⟨h5, by omega⟩

theorem idx {l : List α} {l' : List β} (h : List.Forall₂ R l l') (i : Nat) :
    Spans R (Fine.idx l i) (Parm.idx l' i) := by
  refine ⟨fun a c t b t' h1 h2 => ?_⟩
  obtain ⟨⟨i1, e1⟩, n1⟩ := Short.idx.out _ _ h1
  have e2 : ∃ h : i < l'.length, l'[i] = b ∧ t = t' := by
    unfold Parm.idx at h2
    cases hv : l'[i]? with
    | none => rw [hv] at h2; cases h2
    | some v =>
      rw [hv] at h2
      injection h2 with h2
      injection h2 with h2 h2'
      obtain ⟨hi, hv⟩ := List.getElem?_eq_some_iff.1 hv
      exact ⟨hi, hv.trans h2, h2'⟩
  obtain ⟨i2, e2, e3⟩ := e2
  subst e1 e2 e3
  exact ⟨h.get i1 i2, by omega⟩

theorem short (h : Spans R p m) {b : β} {d : Nat} (hb : worst m = some (b, d)) : Short p (fun a => R a b) d := by
  refine ⟨fun a c h1 => ?_⟩
  unfold worst at hb
  split at hb
  · rename_i b' t e
    injection hb with hb
    injection hb with hb1 hb2
    subst hb1 hb2
    obtain ⟨h2, h3⟩ := h.out a c _ _ _ h1 e
    exact ⟨h2, by simpa [St.init] using h3⟩
  · cases hb

end
end Spans

structure SpanArith {T : Type} (A : Fine.Arith T) (L : Parm.Arith Nat) (Q : T → Nat → Prop) : Prop where
  zero : Q A.zero L.zero
  opp : ∀ {x n}, Q x n → Spans Q (A.opp x) (L.opp n)
  shift : ∀ {x n} k, Q x n → Spans Q (A.shift x k) (L.shift n k)
  add : ∀ {x n y m}, Q x n → Q y m → Spans Q (A.add x y) (L.add n m)
  sub : ∀ {x n y m}, Q x n → Q y m → Spans Q (A.sub x y) (L.sub n m)
  addConst : ∀ {x n} k, Q x n → Spans Q (A.addConst x k) (L.addConst n k)
  scalarMul : ∀ {x n} k, Q x n → Spans Q (A.scalarMul k x) (L.scalarMul k n)
  sgn : ∀ {x n}, Q x n → Spans Q (A.sgn x) (L.sgn n)
  max : ∀ {x n y m}, Q x n → Q y m → Spans Q (A.max x y) (L.max n m)
  relu : ∀ {x n}, Q x n → Spans Q (A.relu x) (L.relu n)
  mul : ∀ {x n y m}, Q x n → Q y m → Spans Q (A.mul x y) (L.mul n m)
  squ : ∀ {x n}, Q x n → Spans Q (A.squ x) (L.squ n)
  roundAt : ∀ {x n} p, Q x n → Spans Q (A.roundAt x p) (L.roundAt n p)

/-! ### The arithmetic of ciphertexts -/

section
variable {S : Scheme} {pc : Cloud}

theorem Short.both {α : Type} {p : P α} {m : M α} {Q Q' : α → Prop} {d n : Nat} (h : Short p Q d) (hr : Runs p m)
    (hw : Within m Q' n) : Short p Q' d :=
  (Short.and_of h hr hw.ensures).mono (fun _ h => h.2) le_rfl

theorem short_addSub (isAdd refresh : Bool) {x y : Ctxt S.C} {n m : Nat} (hx : x.length ≤ n) (hy : y.length ≤ m) :
    Short (addSubImpl S isAdd pc x y refresh) (fun z => z.length ≤ lenAdd n m) (spanAdd (if refresh then 2 else 1) n m) := by
  refine Short.both (Q := fun _ => True) ?_ (Runs.addSubImpl S pc isAdd x y refresh) (Within.addSub_len isAdd refresh hx hy)
  unfold spanAdd
  split
  · rename_i h
    refine (Short.of_within (Runs.addSubImpl S pc isAdd x y refresh) (Within.addSub_len isAdd refresh hx hy)).mono
      (fun _ _ => trivial) ?_
    unfold costAdd
    rw [if_pos h]
  · exact (Short.addSub isAdd refresh).any

theorem spanReduce_eq (pc : Cloud) (n : Nat) : spanReduce pc n = Wt.recDepth pc n := rfl

theorem spanSgn_eq (pc : Cloud) (n : Nat) : Short.sgnSpan pc n = spanSgn pc n := by
  unfold Short.sgnSpan spanSgn spanReduce Wt.firstDepth
  by_cases h : n ≤ 1
  · rw [if_pos h, if_pos h]
  · have := Wt.clog_round (n := n) (by omega)
    rw [if_neg h, if_neg h, if_neg h]
    omega

theorem spanReduce_mono (pc : Cloud) {a b : Nat} (h : a ≤ b) : spanReduce pc a ≤ spanReduce pc b := Short.recDepth_mono h

theorem spanSgn_mono (pc : Cloud) {a b : Nat} (h : a ≤ b) : spanSgn pc a ≤ spanSgn pc b := by
  have := spanReduce_mono pc h
  unfold spanSgn
  split_ifs <;> omega

theorem short_select {x y : Ctxt S.C} {N e : Nat} (h : Short (Fine.ctSub S pc x y) (fun r => r.length ≤ N) e) :
    Short (Fine.maxImpl S pc x y) Short.Any (e + spanSelect pc N) :=
  (Short.maxImpl h).mono (fun _ h => h) (le_of_eq (Nat.add_assoc _ _ _))

theorem short_scalar_small {x : Ctxt S.C} {k : Int} (hk : k.natAbs ≤ 1) :
    Short (Fine.ctScalarMul S pc k x) Short.Any 0 := by
  unfold Fine.ctScalarMul scalarMulImpl
  have h1 : inI32 (k.natAbs : Int) = true := by
    unfold inI32
    simp only [Bool.and_eq_true, decide_eq_true_eq]
    omega
  have h2 : Fine.i32Op pc.build (k.natAbs : Int) = Pure.pure (k.natAbs : Int) := by
    unfold Fine.i32Op; rw [if_pos h1]
  rw [h2]
  refine Short.call (Short.bind0 (Q := fun a => a = (k.natAbs : Int)) (Short.pure rfl) ?_)
  rintro _ rfl
  have h3 : (wrapU32 (k.natAbs : Int)).toNat = k.natAbs := by unfold wrapU32; omega
  simp only [h3]
  exact Short.ite (fun _ => Short.pure trivial) fun h0 => Short.ite (fun _ => Short.pure trivial) fun h1 => by omega

theorem short_scalar {x : Ctxt S.C} {n : Nat} {k : Int} (hasc : pc.asc = asc12) (h1 : -2 ^ 31 ≤ k) (h2 : k < 2 ^ 31)
    (h : x.length ≤ n) : Short (Fine.ctScalarMul S pc k x) (fun z => z.length ≤ n + bits k.natAbs + 7)
      (if k.natAbs ≤ 1 then 0 else 12) := by
  obtain ⟨ds, hds, hw⟩ := Wc.recoding_weight (k := k) h1 h2
  have hwit := (Within.scalarMulImpl (S := S) (pc := pc) hasc h1 h2 hds (bits_lt _) x).call
  refine Short.both (Q := Short.Any) ?_ (Runs.ctScalarMul S pc k x) (hwit.mono (fun z hz => Nat.le_trans hz (by omega)) le_rfl)
  split
  · rename_i hs; exact short_scalar_small hs
  · have hL : ∀ e ∈ pc.asc, e.2.length ≤ 4 := fun e he => by
      rw [hasc] at he
      simpa using List.all_eq_true.1 asc12_chain_length e he
    exact Short.scalarMul hL k

theorem spanAdd_le (n m : Nat) : spanAdd 2 n m ≤ spanAdd 2 n 1 := by
  unfold spanAdd
  by_cases h : n = 0
  · simp [h]
  · simp only [h, false_or, Nat.one_ne_zero, if_false]
    split_ifs <;> omega

theorem spanArith (S : Scheme) {pc : Cloud} (hasc : pc.asc = asc12) :
    SpanArith (Fine.arithCt S pc) (arithSpan pc) fun z n => z.length ≤ n where
  zero := Nat.le_refl 0
  opp {x n} h := Spans.pure (by simpa [ctOpp, oppositeImpl] using h)
  shift {x n} k h := Spans.pure (by rw [length_ctShift (S := S)]; omega)
  add h h' := Spans.costing (short_addSub true true h h').call
  sub h h' := Spans.costing (short_addSub false true h h').call
  addConst {x n} k h := by
    refine Spans.costing (Short.both (Q := fun _ => True) ?_ (Runs.ctAddConst S pc x k) (Within.addConst h k).call)
    by_cases hk : k = 0
    · rw [if_pos hk]
      show Short (P.call (addConstImpl S pc x k)) _ _
      unfold addConstImpl
      rw [if_pos hk]
      exact Short.call (Short.pure trivial)
    · rw [if_neg hk]
      show Short (P.call (addConstImpl S pc x k)) _ _
      unfold addConstImpl
      rw [if_neg hk]
      refine Short.call ((Short.i64Op _ _).bind0 fun a _ => ?_)
      exact (((short_addSub true true h le_rfl).call).mono (fun _ _ => trivial) (spanAdd_le _ _))
  scalarMul {x n} k h := by
    unfold Fine.arithCt arithSpan
    dsimp only
    by_cases hk : k < -2 ^ 31 ∨ 2 ^ 31 ≤ k
    · rw [if_pos hk]; exact Spans.panic _
    · rw [if_neg hk]
      have hs := short_scalar (S := S) hasc (by omega) (by omega) h (k := k)
      exact Spans.costing hs
  sgn {x n} h := by
    refine Spans.costing (Short.both (Short.sgn.mono (fun _ h => h) ?_) (Runs.ctSgn S pc x) (Within.sgn h).call)
    rw [spanSgn_eq]
    exact spanSgn_mono pc h
  max {x n y m} h h' := by
    refine Spans.costing (Short.both (Q := Short.Any) ?_ (Runs.ctMax S pc x y) (Within.max h h').call)
    exact (short_select (short_addSub false true h h').call).call
  relu {x n} h := by
    refine Spans.costing (Short.both (Short.relu.mono (fun _ h => h) ?_) (Runs.ctRelu S pc x) (Within.relu h).call)
    exact Nat.add_le_add_right (spanReduce_mono pc h) _
  mul {x n y m} h h' := by
    show Spans _ _ (match mulBound[Max.max n m]? with | some (_, l) => Parm.costing (spanMul (Max.max n m)) l | none => M.panic .unwrapNone)
    cases e : mulBound[Max.max n m]? with
    | none => exact Spans.panic _
    | some p =>
      obtain ⟨hi, -⟩ := List.getElem?_eq_some_iff.1 e
      have hi : Max.max n m < 33 := hi
      have := Within.mulImpl (S := S) (pc := pc) mulFuel x y (Max.max n m) (by omega) (by omega) (by omega)
      unfold mulLenB mulCostB at this
      rw [List.getD_eq_getElem?_getD, e] at this
      refine Spans.costing (Short.both (Short.mul.mono (fun _ h => h) ?_) (Runs.ctMul S pc x y) this.call)
      unfold Short.mulSpan spanMul
      split_ifs <;> omega
  squ {x n} h := by
    show Spans _ _ (match squBound[n]? with | some (_, l) => Parm.costing (spanSqu n) l | none => M.panic .unwrapNone)
    cases e : squBound[n]? with
    | none => exact Spans.panic _
    | some p =>
      obtain ⟨hi, -⟩ := List.getElem?_eq_some_iff.1 e
      have hi : n < 33 := hi
      have := Within.squImpl (S := S) (pc := pc) mulFuel x n h (by omega)
      unfold squLenB squCostB at this
      rw [List.getD_eq_getElem?_getD, e] at this
      refine Spans.costing (Short.both (Short.squ.mono (fun _ h => h) ?_) (Runs.ctSqu S pc x) this.call)
      unfold Short.squSpan spanSqu
      split_ifs <;> omega
  roundAt {x n} p h := by
    have hw := (Within.roundAt (pc := pc) (p := p) h).call
    have hr := Runs.ctRoundAt S pc x p
    show Spans _ _ (if p = 0 then Pure.pure n else if p > n then Pure.pure 0 else Parm.costing _ _)
    by_cases h0 : p = 0
    · rw [if_pos h0]
      simp only [h0, true_or, if_true] at hw
      rw [h0] at hr ⊢
      exact Spans.of_short (Short.of_within hr hw)
    · rw [if_neg h0]
      by_cases h1 : p > n
      · rw [if_pos h1]
        simp only [h0, h1, or_true, if_true, if_false] at hw
        exact Spans.of_short (Short.of_within hr hw)
      · rw [if_neg h1]
        simp only [h0, h1, or_false, if_false] at hw
        refine Spans.costing (Short.both ((Short.roundAt p).mono (fun _ h => h) ?_) hr hw)
        rw [spanSgn_eq]

end

/-! ### Programs and networks -/

section
variable {T : Type} {A : Fine.Arith T} {L : Parm.Arith Nat} {Q : T → Nat → Prop} (H : SpanArith A L Q)
include H

theorem SpanArith.instr {xs : List T} {ns : List Nat} (h : List.Forall₂ Q xs ns) (i : Instr) :
    Spans Q (Fine.Instr.run A xs i) (i.run L ns) := by
  cases i
  case zero => exact Spans.pure H.zero
  case opp i => exact (Spans.idx h i).bind fun _ _ h => H.opp h
  case shift i k => exact (Spans.idx h i).bind fun _ _ h => H.shift k h
  case add i j => exact (Spans.idx h i).bind fun _ _ h1 => (Spans.idx h j).bind fun _ _ h2 => H.add h1 h2
  case sub i j => exact (Spans.idx h i).bind fun _ _ h1 => (Spans.idx h j).bind fun _ _ h2 => H.sub h1 h2
  case addConst i k => exact (Spans.idx h i).bind fun _ _ h => H.addConst k h
  case scalarMul k i => exact (Spans.idx h i).bind fun _ _ h => H.scalarMul k h
  case sgn i => exact (Spans.idx h i).bind fun _ _ h => H.sgn h
  case max i j => exact (Spans.idx h i).bind fun _ _ h1 => (Spans.idx h j).bind fun _ _ h2 => H.max h1 h2
  case relu i => exact (Spans.idx h i).bind fun _ _ h => H.relu h
  case mul i j => exact (Spans.idx h i).bind fun _ _ h1 => (Spans.idx h j).bind fun _ _ h2 => H.mul h1 h2
  case squ i => exact (Spans.idx h i).bind fun _ _ h => H.squ h
  case roundAt i p => exact (Spans.idx h i).bind fun _ _ h => H.roundAt p h

theorem SpanArith.prog : ∀ (p : List Instr) {xs : List T} {ns : List Nat}, List.Forall₂ Q xs ns →
    Spans (List.Forall₂ Q) (Fine.runProg A p xs) (Parm.runProg L p ns)
  | [], _, _, h => Spans.pure h
  | i :: p, _, _, h => (H.instr h i).bind fun _ _ hz => SpanArith.prog p (List.rel_append h (.cons hz .nil))

theorem SpanArith.affineLoop : ∀ (w : List Int) {xs : List T} {ns : List Nat} {r : T} {l : Nat}, List.Forall₂ Q xs ns → Q r l →
    Spans Q (Fine.affineLoop A w xs r) (Parm.affineLoop L w ns l)
  | [], _, _, _, _, _, hr => Spans.pure hr
  | _ :: _, _, _, _, _, .nil, hr => Spans.pure hr
  | k :: w, _, _, _, _, .cons h1 h2, hr => (H.scalarMul k h1).bind fun _ _ hs => (H.add hr hs).bind fun _ _ hz =>
    SpanArith.affineLoop w h2 hz

theorem SpanArith.affinePool (w : List Int) (b : Int) {xs : List T} {ns : List Nat} (h : List.Forall₂ Q xs ns) :
    Spans Q (Fine.affinePool A w xs b) (Parm.affinePool L w ns b) :=
  (H.affineLoop w h H.zero).bind fun _ _ hz => H.addConst b hz

theorem SpanArith.applyWeights : ∀ (w : List Int) {xs : List T} {ns : List Nat}, List.Forall₂ Q xs ns →
    Spans (List.Forall₂ Q) (Fine.applyWeights A w xs) (Parm.applyWeights L w ns)
  | [], _, _, _ => Spans.pure .nil
  | _ :: _, _, _, .nil => Spans.pure .nil
  | k :: w, _, _, .cons h1 h2 => (H.scalarMul k h1).bind fun _ _ hs => (SpanArith.applyWeights w h2).bind fun _ _ hz =>
    Spans.pure (.cons hs hz)

theorem SpanArith.maxChunks : ∀ {xs : List T} {ns : List Nat}, List.Forall₂ Q xs ns →
    Spans (List.Forall₂ Q) (Fine.maxChunks A xs) (Parm.maxChunks L ns)
  | _, _, .nil => Spans.pure .nil
  | _, _, .cons h .nil => Spans.pure (.cons h .nil)
  | _, _, .cons h1 (.cons h2 h3) => (H.max h1 h2).bind fun _ _ hm => (SpanArith.maxChunks h3).bind fun _ _ hz =>
    Spans.pure (.cons hm hz)

theorem SpanArith.maxPoolRecursion : ∀ (fuel : Nat) {xs : List T} {ns : List Nat}, List.Forall₂ Q xs ns →
    Spans Q (Fine.maxPoolRecursion A fuel xs) (Parm.maxPoolRecursion L fuel ns)
  | fuel, _, _, .nil => by unfold Fine.maxPoolRecursion Parm.maxPoolRecursion; exact Spans.pure H.zero
  | fuel, _, _, .cons h .nil => by unfold Fine.maxPoolRecursion Parm.maxPoolRecursion; exact Spans.pure h
  | 0, _, _, .cons h1 (.cons h2 h3) => Spans.panic _
  | fuel + 1, _, _, .cons h1 (.cons h2 h3) => by
    unfold Fine.maxPoolRecursion Parm.maxPoolRecursion
    exact (H.maxChunks (.cons h1 (.cons h2 h3))).bind fun _ _ hz => SpanArith.maxPoolRecursion fuel hz

theorem SpanArith.evalPerc (p : Perceptron) {xs : List T} {ns : List Nat} (h : List.Forall₂ Q xs ns) :
    Spans Q (Fine.evalPerc A p xs) (Parm.evalPerc L p ns) := by
  unfold Fine.evalPerc Parm.evalPerc
  cases p.t
  · refine (H.applyWeights p.w h).bind fun a b hw => ?_
    rw [hw.length_eq]
    exact (H.maxPoolRecursion _ hw).bind fun _ _ hz => H.addConst p.b hz
  · exact H.affinePool p.w p.b h
  · exact (H.affinePool p.w p.b h).bind fun _ _ hz => H.relu hz

theorem SpanArith.evalLayer : ∀ (l : List Perceptron) {xs : List T} {ns : List Nat}, List.Forall₂ Q xs ns →
    Spans (List.Forall₂ Q) (Fine.evalLayer A l xs) (Parm.evalLayer L l ns)
  | [], _, _, _ => Spans.pure .nil
  | p :: l, _, _, h => (H.evalPerc p h).bind fun _ _ h1 => (SpanArith.evalLayer l h).bind fun _ _ h2 =>
    Spans.pure (.cons h1 h2)

theorem SpanArith.evalLayers : ∀ (ls : List (List Perceptron)) {xs o : List T} {ns k : List Nat}, List.Forall₂ Q xs ns →
    List.Forall₂ Q o k → Spans (List.Forall₂ Q) (Fine.evalLayers A ls xs o) (Parm.evalLayers L ls ns k)
  | [], _, _, _, _, _, h => Spans.pure h
  | l :: ls, _, _, _, _, h, _ => (H.evalLayer l h).bind fun _ _ hz => SpanArith.evalLayers ls hz hz

end

end Fine
end Parm
