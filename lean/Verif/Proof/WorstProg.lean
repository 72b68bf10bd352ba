import Verif.Proof.WorstCase
import Verif.Model.NN
import Verif.Proof.Lengths
import Verif.Props.ScalarCost

/-!
# Worst cases of programs and networks
-/

namespace Parm
namespace Wc

/-- whatever the two computations return is related, and the second counts at least as many bootstraps -/
def Bounded {α β : Type} (R : α → β → Prop) (m : M α) (m' : M β) : Prop :=
  ∀ s a s' t b t', m s = .ok (a, s') → m' t = .ok (b, t') → R a b ∧ s'.pbs + t.pbs ≤ s.pbs + t'.pbs

section
variable {α β α' β' : Type} {R : α → β → Prop} {R' : α' → β' → Prop} {m : M α} {m' : M β}

theorem Bounded.pure {a : α} {b : β} (h : R a b) : Bounded R (Pure.pure a) (Pure.pure b) := by
  intro s a' s' t b' t' h1 h2
  injection h1 with h1
  injection h1 with h1 h1'
  injection h2 with h2
  injection h2 with h2 h2'
  subst h1 h2 h1' h2'
  exact ⟨h, le_rfl⟩

theorem Bounded.panic (p : PanicKind) : Bounded R m (M.panic p) := by
  intro s a s' t b t' _ h
  cases h

theorem Bounded.costing {c l : Nat} {R : α → Nat → Prop} (h : Within m (fun a => R a l) c) : Bounded R m (costing c l) := by
  intro s a s' t b t' h1 h2
  injection h2 with h2
  injection h2 with h2 h2'
  subst h2 h2'
  obtain ⟨h3, h4⟩ := h s a s' h1
  exact ⟨h3, by show _ ≤ s.pbs + (t.pbs + c); omega⟩

theorem Bounded.of_within {b : β} (h : Within m (fun a => R a b) 0) : Bounded R m (Pure.pure b) := by
  intro s a s' t b t' h1 h2
  injection h2 with h2
  injection h2 with h2 h2'
  subst h2 h2'
  obtain ⟨h3, h4⟩ := h s a s' h1
  exact ⟨h3, by omega⟩

theorem Bounded.bind {f : α → M α'} {f' : β → M β'} (h : Bounded R m m') (hf : ∀ a b, R a b → Bounded R' (f a) (f' b)) :
    Bounded R' (m >>= f) (m' >>= f') := by
  intro s c s' t d t' h1 h2
  simp only [Bind.bind, StateT.bind, Except.bind] at h1 h2
  cases e1 : m s with
  | error _ => rw [e1] at h1; cases h1
  | ok p =>
    cases e2 : m' t with
    | error _ => rw [e2] at h2; cases h2
    | ok q =>
      rw [e1] at h1
      rw [e2] at h2
      obtain ⟨h3, h4⟩ := h s p.1 p.2 t q.1 q.2 e1 e2
      obtain ⟨h5, h6⟩ := hf p.1 q.1 h3 p.2 c s' q.2 d t' h1 h2
      exact ⟨h5, by omega⟩

theorem Bounded.idx {l : List α} {l' : List β} (h : List.Forall₂ R l l') (i : Nat) : Bounded R (idx l i) (idx l' i) := by
  intro s a s' t b t' h1 h2
  obtain ⟨⟨i1, e1⟩, n1⟩ := Within.idx s a s' h1
  have e2 : ∃ h : i < l'.length, l'[i] = b ∧ t = t' := by
    unfold Parm.idx at h2
    cases hv : l'[i]? with
    | none => rw [hv] at h2; cases h2
    | some v =>
      rw [hv] at h2
      injection h2 with h2
      injection h2 with h2 h2'
      obtain ⟨hi, hv⟩ := List.getElem?_eq_some_iff.1 hv
      exact ⟨hi, hv.trans h2, h2'⟩
  obtain ⟨i2, e2, e3⟩ := e2
  subst e1 e2 e3
  exact ⟨h.get i1 i2, by omega⟩

theorem Bounded.within (h : Bounded R m m') {b : β} {n : Nat} (hb : worst m' = some (b, n)) :
    Within m (fun a => R a b) n := by
  intro s a s' h1
  unfold worst at hb
  split at hb
  · rename_i b' t e
    injection hb with hb
    injection hb with hb1 hb2
    subst hb1 hb2
    obtain ⟨h2, h3⟩ := h s a s' _ _ _ h1 e
    exact ⟨h2, by simpa [St.init] using h3⟩
  · cases hb

end

structure CostArith {T : Type} (A : Arith T) (L : Arith Nat) (Q : T → Nat → Prop) : Prop where
  zero : Q A.zero L.zero
  opp : ∀ {x n}, Q x n → Bounded Q (A.opp x) (L.opp n)
  shift : ∀ {x n} k, Q x n → Bounded Q (A.shift x k) (L.shift n k)
  add : ∀ {x n y m}, Q x n → Q y m → Bounded Q (A.add x y) (L.add n m)
  sub : ∀ {x n y m}, Q x n → Q y m → Bounded Q (A.sub x y) (L.sub n m)
  addNoisy : ∀ {x n y m}, Q x n → Q y m → Bounded Q (A.addNoisy x y) (L.addNoisy n m)
  subNoisy : ∀ {x n y m}, Q x n → Q y m → Bounded Q (A.subNoisy x y) (L.subNoisy n m)
  addConst : ∀ {x n} k, Q x n → Bounded Q (A.addConst x k) (L.addConst n k)
  scalarMul : ∀ {x n} k, Q x n → Bounded Q (A.scalarMul k x) (L.scalarMul k n)
  sgn : ∀ {x n}, Q x n → Bounded Q (A.sgn x) (L.sgn n)
  max : ∀ {x n y m}, Q x n → Q y m → Bounded Q (A.max x y) (L.max n m)
  relu : ∀ {x n}, Q x n → Bounded Q (A.relu x) (L.relu n)
  mul : ∀ {x n y m}, Q x n → Q y m → Bounded Q (A.mul x y) (L.mul n m)
  squ : ∀ {x n}, Q x n → Bounded Q (A.squ x) (L.squ n)
  roundAt : ∀ {x n} p, Q x n → Bounded Q (A.roundAt x p) (L.roundAt n p)


variable {S : Scheme} {pc : Cloud}

theorem recoding_weight {k : Int} (hk1 : -2 ^ 31 ≤ k) (hk2 : k < 2 ^ 31) :
    ∃ ds, Returns (koyamaTsuruokaVec .release k.natAbs) ds 0 ∧ digitWeight ds - 1 ≤ binWeight k.natAbs - 1 := by
  by_cases h0 : k.natAbs = 0
  · refine ⟨[0], by rw [h0]; exact C28_zero _, ?_⟩
    have e : digitWeight [0] - 1 = 0 := by decide
    omega
  · obtain ⟨ds, d1, -, d3⟩ := C29_weight_partial h0 (show k.natAbs < 2 ^ 32 by omega)
    exact ⟨ds, d1, by omega⟩

theorem costArith (S : Scheme) {pc : Cloud} (hasc : pc.asc = asc12) :
    CostArith (arithCt S pc) (arithCost pc) fun z n => z.length ≤ n where
  zero := Nat.le_refl 0
  opp {x n} h := Bounded.pure (by simpa [ctOpp, oppositeImpl] using h)
  shift {x n} k h := Bounded.pure (by rw [length_ctShift (S := S)]; omega)
  add h h' := Bounded.costing (Within.addSub_len true true h h').call
  sub h h' := Bounded.costing (Within.addSub_len false true h h').call
  addNoisy h h' := Bounded.costing (Within.addSub_len true false h h').call
  subNoisy h h' := Bounded.costing (Within.addSub_len false false h h').call
  addConst k h := Bounded.costing (Within.addConst h k).call
  scalarMul {x n} k h := by
    show Bounded _ _ (if _ then _ else _)
    split
    · exact Bounded.panic _
    · rename_i hk
      obtain ⟨ds, hds, hw⟩ := recoding_weight (k := k) (by omega) (by omega)
      refine Bounded.costing ((Within.scalarMulImpl hasc (by omega) (by omega) hds (bits_lt _) x).call.mono
        (fun z hz => by omega) ?_)
      exact Nat.mul_le_mul (by omega) (by omega)
  sgn h := Bounded.costing (Within.sgn h).call
  max h h' := Bounded.costing (Within.max h h').call
  relu h := Bounded.costing (Within.relu h).call
  mul {x n y m} h h' := by
    show Bounded _ _ (match mulBound[max n m]? with | some (c, l) => costing c l | none => M.panic .unwrapNone)
    cases e : mulBound[max n m]? with
    | none => exact Bounded.panic _
    | some p =>
      obtain ⟨hi, -⟩ := List.getElem?_eq_some_iff.1 e
      have hi : max n m < 33 := hi
      have := Within.mulImpl (S := S) (pc := pc) mulFuel x y (max n m) (by omega) (by omega) (by omega)
      unfold mulLenB mulCostB at this
      rw [List.getD_eq_getElem?_getD, e] at this
      exact Bounded.costing this.call
  squ {x n} h := by
    show Bounded _ _ (match squBound[n]? with | some (c, l) => costing c l | none => M.panic .unwrapNone)
    cases e : squBound[n]? with
    | none => exact Bounded.panic _
    | some p =>
      obtain ⟨hi, -⟩ := List.getElem?_eq_some_iff.1 e
      have hi : n < 33 := hi
      have := Within.squImpl (S := S) (pc := pc) mulFuel x n h (by omega)
      unfold squLenB squCostB at this
      rw [List.getD_eq_getElem?_getD, e] at this
      exact Bounded.costing this.call
  roundAt {x n} p h := by
    have := (Within.roundAt (pc := pc) (p := p) h).call
    show Bounded _ _ (if p = 0 then Pure.pure n else if p > n then Pure.pure 0 else costing _ _)
    by_cases h0 : p = 0
    · rw [if_pos h0]
      simp only [h0, true_or, if_true] at this
      rw [h0]
      exact Bounded.of_within this
    · rw [if_neg h0]
      by_cases h1 : p > n
      · rw [if_pos h1]
        simp only [h0, h1, or_true, if_true, if_false] at this
        exact Bounded.of_within this
      · rw [if_neg h1]
        simp only [h0, h1, or_false, if_false] at this
        exact Bounded.costing this

/-! ### Programs and networks -/

section
variable {T : Type} {A : Arith T} {L : Arith Nat} {Q : T → Nat → Prop} (H : CostArith A L Q)
include H

theorem CostArith.instr {xs : List T} {ns : List Nat} (h : List.Forall₂ Q xs ns) (i : Instr) :
    Bounded Q (i.run A xs) (i.run L ns) := by
  cases i
  case zero => exact Bounded.pure H.zero
  case opp i => exact (Bounded.idx h i).bind fun _ _ h => H.opp h
  case shift i k => exact (Bounded.idx h i).bind fun _ _ h => H.shift k h
  case add i j => exact (Bounded.idx h i).bind fun _ _ h1 => (Bounded.idx h j).bind fun _ _ h2 => H.add h1 h2
  case sub i j => exact (Bounded.idx h i).bind fun _ _ h1 => (Bounded.idx h j).bind fun _ _ h2 => H.sub h1 h2
  case addConst i k => exact (Bounded.idx h i).bind fun _ _ h => H.addConst k h
  case scalarMul k i => exact (Bounded.idx h i).bind fun _ _ h => H.scalarMul k h
  case sgn i => exact (Bounded.idx h i).bind fun _ _ h => H.sgn h
  case max i j => exact (Bounded.idx h i).bind fun _ _ h1 => (Bounded.idx h j).bind fun _ _ h2 => H.max h1 h2
  case relu i => exact (Bounded.idx h i).bind fun _ _ h => H.relu h
  case mul i j => exact (Bounded.idx h i).bind fun _ _ h1 => (Bounded.idx h j).bind fun _ _ h2 => H.mul h1 h2
  case squ i => exact (Bounded.idx h i).bind fun _ _ h => H.squ h
  case roundAt i p => exact (Bounded.idx h i).bind fun _ _ h => H.roundAt p h

theorem CostArith.prog : ∀ (p : List Instr) {xs : List T} {ns : List Nat}, List.Forall₂ Q xs ns →
    Bounded (List.Forall₂ Q) (runProg A p xs) (runProg L p ns)
  | [], _, _, h => Bounded.pure h
  | i :: p, _, _, h => (H.instr h i).bind fun _ _ hz => CostArith.prog p (List.rel_append h (.cons hz .nil))

theorem CostArith.affineLoop : ∀ (w : List Int) {xs : List T} {ns : List Nat} {r : T} {l : Nat}, List.Forall₂ Q xs ns → Q r l →
    Bounded Q (affineLoop A w xs r) (affineLoop L w ns l)
  | [], _, _, _, _, _, hr => Bounded.pure hr
  | _ :: _, _, _, _, _, .nil, hr => Bounded.pure hr
  | k :: w, _, _, _, _, .cons h1 h2, hr => (H.scalarMul k h1).bind fun _ _ hs => (H.add hr hs).bind fun _ _ hz =>
    CostArith.affineLoop w h2 hz

theorem CostArith.affinePool (w : List Int) (b : Int) {xs : List T} {ns : List Nat} (h : List.Forall₂ Q xs ns) :
    Bounded Q (affinePool A w xs b) (affinePool L w ns b) :=
  (H.affineLoop w h H.zero).bind fun _ _ hz => H.addConst b hz

theorem CostArith.applyWeights : ∀ (w : List Int) {xs : List T} {ns : List Nat}, List.Forall₂ Q xs ns →
    Bounded (List.Forall₂ Q) (applyWeights A w xs) (applyWeights L w ns)
  | [], _, _, _ => Bounded.pure .nil
  | _ :: _, _, _, .nil => Bounded.pure .nil
  | k :: w, _, _, .cons h1 h2 => (H.scalarMul k h1).bind fun _ _ hs => (CostArith.applyWeights w h2).bind fun _ _ hz =>
    Bounded.pure (.cons hs hz)

theorem CostArith.maxChunks : ∀ {xs : List T} {ns : List Nat}, List.Forall₂ Q xs ns →
    Bounded (List.Forall₂ Q) (maxChunks A xs) (maxChunks L ns)
  | _, _, .nil => Bounded.pure .nil
  | _, _, .cons h .nil => Bounded.pure (.cons h .nil)
  | _, _, .cons h1 (.cons h2 h3) => (H.max h1 h2).bind fun _ _ hm => (CostArith.maxChunks h3).bind fun _ _ hz =>
    Bounded.pure (.cons hm hz)

theorem CostArith.maxPoolRecursion : ∀ (fuel : Nat) {xs : List T} {ns : List Nat}, List.Forall₂ Q xs ns →
    Bounded Q (maxPoolRecursion A fuel xs) (maxPoolRecursion L fuel ns)
  | fuel, _, _, .nil => by unfold Parm.maxPoolRecursion; exact Bounded.pure H.zero
  | fuel, _, _, .cons h .nil => by unfold Parm.maxPoolRecursion; exact Bounded.pure h
  | 0, _, _, .cons h1 (.cons h2 h3) => Bounded.panic _
  | fuel + 1, _, _, .cons h1 (.cons h2 h3) => by
    unfold Parm.maxPoolRecursion
    exact (H.maxChunks (.cons h1 (.cons h2 h3))).bind fun _ _ hz => CostArith.maxPoolRecursion fuel hz

theorem CostArith.evalPerc (p : Perceptron) {xs : List T} {ns : List Nat} (h : List.Forall₂ Q xs ns) :
    Bounded Q (evalPerc A p xs) (evalPerc L p ns) := by
  unfold Parm.evalPerc
  cases p.t
  · refine (H.applyWeights p.w h).bind fun a b hw => ?_
    rw [hw.length_eq]
    exact (H.maxPoolRecursion _ hw).bind fun _ _ hz => H.addConst p.b hz
  · exact H.affinePool p.w p.b h
  · exact (H.affinePool p.w p.b h).bind fun _ _ hz => H.relu hz

theorem CostArith.evalLayer : ∀ (l : List Perceptron) {xs : List T} {ns : List Nat}, List.Forall₂ Q xs ns →
    Bounded (List.Forall₂ Q) (evalLayer A l xs) (evalLayer L l ns)
  | [], _, _, _ => Bounded.pure .nil
  | p :: l, _, _, h => (H.evalPerc p h).bind fun _ _ h1 => (CostArith.evalLayer l h).bind fun _ _ h2 =>
    Bounded.pure (.cons h1 h2)

theorem CostArith.evalLayers : ∀ (ls : List (List Perceptron)) {xs o : List T} {ns k : List Nat}, List.Forall₂ Q xs ns →
    List.Forall₂ Q o k → Bounded (List.Forall₂ Q) (evalLayers A ls xs o) (evalLayers L ls ns k)
  | [], _, _, _, _, _, h => Bounded.pure h
  | l :: ls, _, _, _, _, h, _ => (H.evalLayer l h).bind fun _ _ hz => CostArith.evalLayers ls hz hz

theorem CostArith.accumulate : ∀ {xs : List T} {ns : List Nat} {r : T} {l : Nat}, List.Forall₂ Q xs ns → Q r l →
    Bounded Q (accumulate A xs r) (accumulate L ns l)
  | _, _, _, _, .nil, hr => Bounded.pure hr
  | _, _, _, _, .cons h1 h2, hr => (H.add hr h1).bind fun _ _ hz => CostArith.accumulate h2 hz

end

end Wc
end Parm
