import Verif.Proof.Depth
import Verif.Proof.DepthScheme
import Verif.Props.Weights

/-!
# Locality of addition (C54) and bootstrap depth (C55)

As in `Props/Weights.lean` the operations run on terms (`freeScheme`); `C39_faithful` carries the results
over to any scheme.  `C54_local` is about any scheme directly.
-/

namespace Parm

open Wt

variable {x y : Ctxt Term} {pc : Cloud}

/-! ### C54: locality -/

/-- **C54** on terms: word `i` of a sum or difference depends on the words `i`, `i-1` and `i-2` of the
operands only. -/
theorem C54_dependencies (pc : Cloud) (x y : Ctxt Term) {m : M (Ctxt Term)}
    (hm : m = ctAdd freeScheme pc x y ∨ m = ctSub freeScheme pc x y ∨ m = ctAddNoisy freeScheme pc x y ∨
      m = ctSubNoisy freeScheme pc x y) {s s' : St} {z : Ctxt Term} (h : m s = .ok (z, s')) (i : Nat) :
    ∀ a ∈ inputsAt z i, ∃ j, j ≤ i ∧ i ≤ j + 2 ∧ (a ∈ inputsAt x j ∨ a ∈ inputsAt y j) := by
  have key : ∀ isAdd refresh, Ensures (addSubImpl freeScheme isAdd pc x y refresh).call fun z => ∀ i, inputsAt z i ⊆ near x y i :=
    fun isAdd refresh => (addSub_local pc isAdd refresh x y).call
  have hz : inputsAt z i ⊆ near x y i := by
    rcases hm with rfl | rfl | rfl | rfl
    · exact key true true s z s' h i
    · exact key false true s z s' h i
    · exact key true false s z s' h i
    · exact key false false s z s' h i
  intro a ha
  have := hz ha
  simp only [near, both, Finset.mem_union] at this
  rcases this with (h | h) | h
  · exact ⟨i, le_refl _, by omega, h⟩
  · exact ⟨i - 1, by omega, by omega, h⟩
  · exact ⟨i - 2, by omega, by omega, h⟩

theorem Term.eval_congr {S : Scheme} {ρ ρ' : Nat → S.C} : ∀ {t : Term}, (∀ a ∈ t.inputs, ρ a = ρ' a) →
    t.eval S ρ = t.eval S ρ'
  | .input i, h => h i (by simp [Term.inputs])
  | .boot acc t, h => by rw [Term.eval, Term.eval, Term.eval_congr (t := t) h]
  | .add s t, h => by
    rw [Term.eval, Term.eval, Term.eval_congr (t := s) fun a ha => h a (by simp [Term.inputs, ha]),
      Term.eval_congr (t := t) fun a ha => h a (by simp [Term.inputs, ha])]
  | .neg t, h => by rw [Term.eval, Term.eval, Term.eval_congr (t := t) h]
  | .mulC t k, h => by rw [Term.eval, Term.eval, Term.eval_congr (t := t) h]
  | .addPt t p, h => by rw [Term.eval, Term.eval, Term.eval_congr (t := t) h]

theorem crel_eval {S : Scheme} {ρ : Nat → S.C} {x : Ctxt Term} {x' : Ctxt S.C} :
    CRel (fun t c => c = t.eval S ρ) x x' ↔ x' = x.map (Word.eval S ρ) := by
  constructor
  · intro h
    induction h with
    | nil => rfl
    | cons h _ ih => rw [List.map_cons, ← ih]; cases h with
      | ct m e => rw [e]; rfl
      | triv p m => rfl
  · rintro rfl
    induction x with
    | nil => exact .nil
    | cons w x ih =>
      refine .cons ?_ ih
      obtain ⟨c | p, m⟩ := w
      · exact .ct m rfl
      · exact .triv p m

/-- word `j` of operand `a`, if it is encrypted -/
private def sample {C : Type} (c0 : C) (x : Ctxt C) (j : Nat) : C :=
  match x[j]? with
  | some ⟨.ct c, _⟩ => c
  | _ => c0

private def val {C : Type} (c0 : C) (x y : Ctxt C) (n : Nat) : C :=
  if n.unpair.1 = 0 then sample c0 x n.unpair.2 else sample c0 y n.unpair.2

private theorem named_eval {S : Scheme} (ρ : Nat → S.C) (c0 : S.C) (x : Ctxt S.C) (a : Nat)
    (h : ∀ j, ρ (Nat.pair a j) = sample c0 x j) : (named a x).map (Word.eval S ρ) = x := by
  refine List.ext_getElem (by simp [named]) fun j h1 h2 => ?_
  have hr := h j
  simp only [named, List.getElem_map, List.getElem_zipIdx, Nat.zero_add]
  simp only [sample, List.getElem?_eq_getElem h2] at hr
  generalize x[j] = w at hr
  obtain ⟨c | p, m⟩ := w
  · simp only [Word.eval, Term.eval]; rw [hr]
  · rfl

private theorem named_shape {C : Type} (a : Nat) {x x' : Ctxt C} (h : SameShape x x') : named a x = named a x' := by
  refine List.ext_getElem (by simpa [named] using h.1) fun j h1 h2 => ?_
  obtain ⟨hm, hc⟩ := h.2 j (by simpa [named] using h1) (by simpa [named] using h2)
  simp only [named, List.getElem_map, List.getElem_zipIdx, Nat.zero_add]
  generalize x[j]'_ = w at hm hc
  generalize x'[j]'_ = w' at hm hc
  obtain ⟨c | p, m⟩ := w <;> obtain ⟨c' | p', m'⟩ := w' <;> simp only at hm hc ⊢
  · rw [hm]
  · rw [hm, hc]

private theorem named_inputs {C : Type} (a j : Nat) (x : Ctxt C) : inputsAt (named a x) j ⊆ {Nat.pair a j} := by
  unfold inputsAt named
  rw [List.getElem?_map, List.getElem?_zipIdx]
  cases x[j]? with
  | none => simp
  | some w =>
    obtain ⟨c | p, m⟩ := w
    · simp [Term.inputs]
    · simp

/-- **C54** for any scheme: changing encrypted words of the operands of an addition or subtraction (with
or without refreshing) changes word `i` of the result only if one of the words `i`, `i-1`, `i-2` changed. -/
theorem C54_local {S : Scheme} (pc : Cloud) {x x' y y' : Ctxt S.C} (hx : SameShape x x') (hy : SameShape y y') (i : Nat)
    (h : ∀ j, j ≤ i → i ≤ j + 2 → x[j]? = x'[j]? ∧ y[j]? = y'[j]?) :
    let Q := fun z z' : Ctxt S.C => z[i]? = z'[i]?
    SameOutcome Q (ctAdd S pc x y) (ctAdd S pc x' y') ∧ SameOutcome Q (ctSub S pc x y) (ctSub S pc x' y') ∧
    SameOutcome Q (ctAddNoisy S pc x y) (ctAddNoisy S pc x' y') ∧
    SameOutcome Q (ctSubNoisy S pc x y) (ctSubNoisy S pc x' y') := by
  intro Q
  rcases isEmpty_or_nonempty S.C with he | ⟨⟨c0⟩⟩
  · -- no encrypted words at all: the operands are the same
    have same : ∀ {x x' : Ctxt S.C}, SameShape x x' → x = x' := by
      intro x x' h
      refine List.ext_getElem h.1 fun j h1 h2 => ?_
      obtain ⟨hm, hc⟩ := h.2 j h1 h2
      generalize x[j] = w at hm hc
      generalize x'[j] = w' at hm hc
      obtain ⟨c | p, m⟩ := w <;> obtain ⟨c' | p', m'⟩ := w'
      · exact (he.false c).elim
      · exact (he.false c).elim
      · exact (he.false c').elim
      · simp only at hm hc; rw [hm, hc]
    obtain rfl := same hx
    obtain rfl := same hy
    have key : ∀ isAdd refresh, SameOutcome Q (addSubImpl S isAdd pc x y refresh).call (addSubImpl S isAdd pc x y refresh).call := by
      intro isAdd refresh
      rcases ((schemeRel_eq S).addSubImpl pc isAdd refresh (CRel.refl x) (CRel.refl y)).call with ⟨a, _, n, h1, _, _, _⟩ | h
      · exact .inl ⟨a, a, n, h1, h1, rfl⟩
      · exact .inr h
    exact ⟨key true true, key false true, key true false, key false false⟩
  · have key : ∀ isAdd refresh, SameOutcome Q (addSubImpl S isAdd pc x y refresh).call (addSubImpl S isAdd pc x' y' refresh).call := by
      intro isAdd refresh
      have hev : ∀ {x y : Ctxt S.C}, CRel (fun t c => c = t.eval S (val c0 x y)) (named 0 x) x ∧
          CRel (fun t c => c = t.eval S (val c0 x y)) (named 1 y) y := by
        intro x y
        constructor
        · rw [crel_eval, named_eval _ c0 x 0 fun j => by simp [val]]
        · rw [crel_eval, named_eval _ c0 y 1 fun j => by simp [val]]
      have r := ((evalRel S (val c0 x y)).addSubImpl pc isAdd refresh hev.1 hev.2).call
      have r' := ((evalRel S (val c0 x' y')).addSubImpl pc isAdd refresh hev.1 hev.2).call
      rw [← named_shape 0 hx, ← named_shape 1 hy] at r'
      have hl := (addSub_local pc isAdd refresh (named 0 x) (named 1 y)).call
      rcases r with ⟨t, z, n, ht, hz, hr, _⟩ | ⟨ht, hz⟩
      · rcases r' with ⟨t', z', n', ht', hz', hr', _⟩ | ⟨ht', _⟩
        · obtain ⟨e1, e2⟩ := ht.unique ht'
          subst e1 e2
          refine .inl ⟨z, z', n, hz, hz', ?_⟩
          obtain ⟨r0, p0, _, e0⟩ := ht (St.init Sched.seq)
          have hn := hl _ _ _ e0 i
          rw [crel_eval] at hr hr'
          show z[i]? = z'[i]?
          rw [hr, hr', List.getElem?_map, List.getElem?_map]
          unfold inputsAt at hn
          cases hw : t[i]? with
          | none => rfl
          | some w =>
            rw [hw] at hn
            obtain ⟨u | p, m⟩ := w
            · simp only [Option.map_some, Word.eval]
              rw [Term.eval_congr fun a ha => ?_]
              have hj : ∃ j, j ≤ i ∧ i ≤ j + 2 ∧ (a = Nat.pair 0 j ∨ a = Nat.pair 1 j) := by
                have := hn ha
                have hb : ∀ j, a ∈ both (named 0 x) (named 1 y) j → a = Nat.pair 0 j ∨ a = Nat.pair 1 j := by
                  intro j hj
                  rw [both, Finset.mem_union] at hj
                  rcases hj with hj | hj
                  · exact .inl (Finset.mem_singleton.1 (named_inputs 0 j x hj))
                  · exact .inr (Finset.mem_singleton.1 (named_inputs 1 j y hj))
                simp only [near, Finset.mem_union] at this
                rcases this with (h | h) | h
                · exact ⟨i, by omega, by omega, hb _ h⟩
                · exact ⟨i - 1, by omega, by omega, hb _ h⟩
                · exact ⟨i - 2, by omega, by omega, hb _ h⟩
              obtain ⟨j, h1, h2, rfl | rfl⟩ := hj
              · simp [val, sample, (h j h1 h2).1]
              · simp [val, sample, (h j h1 h2).2]
            · rfl
        · obtain ⟨f, hf⟩ := ht' (St.init Sched.seq)
          obtain ⟨_, _, _, e0⟩ := ht (St.init Sched.seq)
          rw [e0] at hf; cases hf
      · rcases r' with ⟨t', z', n', ht', _⟩ | ⟨_, hz'⟩
        · obtain ⟨f, hf⟩ := ht (St.init Sched.seq)
          obtain ⟨_, _, _, e0⟩ := ht' (St.init Sched.seq)
          rw [e0] at hf; cases hf
        · exact .inr ⟨hz, hz'⟩
    exact ⟨key true true, key false true, key true false, key false false⟩

/-- All six words do matter. -/
theorem C54_window_met :
    (match ctAdd freeScheme (cloudQ 22) (inputs 0 3) (inputs 3 3) (St.init Sched.seq) with
      | .ok (z, _) => inputsAt z 2
      | .error _ => ∅) = {0, 1, 2, 3, 4, 5} := by decide +kernel

example : SameOutcome (fun z z' : Ctxt Demo.scheme.C => z[0]? = z'[0]?)
    (ctAdd Demo.scheme Demo.cloud (Demo.encVec [1, 0, 1]) (Demo.encVec [0, 1, 0, -1]))
    (ctAdd Demo.scheme Demo.cloud (Demo.encVec [1, 1, 0]) (Demo.encVec [0, 0, 1, 1])) :=
  (C54_local (S := Demo.scheme) Demo.cloud (Demo.sameShape_encVec [1, 0, 1] [1, 1, 0] (by simp))
    (Demo.sameShape_encVec [0, 1, 0, -1] [0, 0, 1, 1] (by simp)) 0 fun j h1 _ => by
    obtain rfl : j = 0 := by omega
    simp [Demo.encVec]).1

/-! ### C55: depth -/

private theorem deep_of {d : Nat} {m : M (Ctxt Term)} (h : Ensures m (Dp d)) : Deep d m := fun s z s' e => dp_iff.1 (h s z s' e)

/-- **C55**, addition and subtraction: two bootstraps one after the other, without refreshing one; for
operands of any length. -/
theorem C55_add (pc : Cloud) {d : Nat} (hx : DepthLE d x) (hy : DepthLE d y) :
    Deep (d + 2) (ctAdd freeScheme pc x y) ∧ Deep (d + 2) (ctSub freeScheme pc x y) ∧
    Deep (d + 1) (ctAddNoisy freeScheme pc x y) ∧ Deep (d + 1) (ctSubNoisy freeScheme pc x y) := by
  have hx := dp_iff.2 hx
  have hy := dp_iff.2 hy
  exact ⟨deep_of (dp_addSub pc true true hx hy).call, deep_of (dp_addSub pc false true hx hy).call,
    deep_of (dp_addSub pc true false hx hy).call, deep_of (dp_addSub pc false false hx hy).call⟩

/-- **C55**, addition of a constant -/
theorem C55_add_const (pc : Cloud) {d : Nat} (hx : DepthLE d x) (k : Int) : Deep (d + 2) (ctAddConst freeScheme pc x k) :=
  deep_of (dp_addConst (dp_iff.2 hx) k)

/-- **C55**, sign of `n ≥ 2` words: `⌈log₄ n⌉`, one more if `quad_weight` is below 85. -/
theorem C55_sgn (pc : Cloud) {d : Nat} (hx : DepthLE d x) :
    Deep (d + if x.length ≤ 1 then 0 else (if 85 ≤ pc.params.quadWeight then 0 else 1) + Nat.clog 4 x.length)
      (ctSgn freeScheme pc x) :=
  deep_of (dp_sgn (dp_iff.2 hx)).call

/-- **C55**, maximum of `n`-word operands: subtraction, sign of `n+1` words, selection. -/
theorem C55_max (pc : Cloud) {d : Nat} (hx : DepthLE d x) (hy : DepthLE d y) (h : 1 ≤ max x.length y.length) :
    Deep (d + (if 85 ≤ pc.params.quadWeight then 3 else 4) + Nat.clog 4 (max x.length y.length + 1)) (ctMax freeScheme pc x y) := by
  refine deep_of ((dp_ctMax (dp_iff.2 hx) (dp_iff.2 hy)).mono fun z hz => hz.mono ?_)
  unfold selDepth recDepth firstDepth
  have : 0 < Nat.clog 4 (max x.length y.length + 1) := Nat.clog_pos (by omega) (by omega)
  rw [if_neg (by omega)]
  split <;> omega

/-- **C55**, ReLU of `n ≥ 2` words -/
theorem C55_relu (pc : Cloud) {d : Nat} (hx : DepthLE d x) :
    Deep (d + if x.length ≤ 1 then 2 else (if 85 ≤ pc.params.quadWeight then 1 else 2) + Nat.clog 4 x.length)
      (ctRelu freeScheme pc x) := by
  refine deep_of ((dp_ctRelu (dp_iff.2 hx)).mono fun z hz => hz.mono ?_)
  unfold selDepth recDepth firstDepth
  by_cases h : x.length ≤ 1
  · simp [h]
  · have : 0 < Nat.clog 4 x.length := Nat.clog_pos (by omega) (by omega)
    rw [if_neg h, if_neg h]
    split <;> omega

/-- **C55**, rounding at position `p`: the sign of the `p-1` lower words, its combination with the next
word, an addition. -/
theorem C55_round_at (pc : Cloud) {d : Nat} (hx : DepthLE d x) (p : Nat) :
    Deep (d + (if p ≤ 2 then 0 else (if 85 ≤ pc.params.quadWeight then 0 else 1) + Nat.clog 4 (p - 1)) + 3)
      (ctRoundAt freeScheme pc x p) :=
  deep_of (dp_round (dp_iff.2 hx) p).call

/-- **C55**, multiplication of `n`-word operands: `2n-1`, from 18 words (Karatsuba) on `n+10`. -/
theorem C55_mul (pc : Cloud) {d : Nat} (hx : DepthLE d x) (hy : DepthLE d y) :
    Deep (d + (if max x.length y.length < 18 then 2 * max x.length y.length - 1 else max x.length y.length + 10))
      (ctMul freeScheme pc x y) := by
  refine deep_of (((dp_mulImpl mulFuel (dp_iff.2 hx) (dp_iff.2 hy)).mono fun z hz => ?_).call)
  split
  · exact hz.1
  · exact hz.2 (by omega)

/-- **C55**, squaring of `n` words: 1 up to three words, then at most `n+4`. -/
theorem C55_squ (pc : Cloud) {d : Nat} (hx : DepthLE d x) :
    Deep (d + if x.length ≤ 3 then 1 else x.length + 4) (ctSqu freeScheme pc x) := by
  refine deep_of (((dp_squImpl mulFuel (dp_iff.2 hx)).mono fun z hz => ?_).call)
  split
  · exact hz.2.2 (by assumption)
  · exact hz.2.1

theorem asc12_chain_length : (asc12.all fun e => decide (e.2.length ≤ 4)) = true := by decide +kernel

/-- **C55**, multiplication by any scalar with the shipped chains: at most 12, whatever the scalar and the
length of the operand. -/
theorem C55_scalar_mul (ha : pc.asc = asc12) {d : Nat} (hx : DepthLE d x) (k : Int) :
    Deep (d + 12) (ctScalarMul freeScheme pc k x) := by
  refine deep_of (dp_scalarMul (L := 4) (fun e he => ?_) k (dp_iff.2 hx))
  rw [ha] at he
  simpa using List.all_eq_true.1 asc12_chain_length e he

/-! ### The bounds are met -/

theorem samples_inputs (a n : Nat) : Samples (inputs a n) := by
  intro w hw
  simp only [inputs, List.mem_map] at hw
  obtain ⟨i, _, rfl⟩ := hw
  exact ⟨rfl, _, rfl⟩

private theorem met {m : M (Ctxt Term)} {m0 : M (Ctxt depthScheme.C)} {Z : Prop} {d : Nat}
    (h : RelM Z (CRel fun (t : Term) (d : Nat) => d = t.depth) m m0) (hu : (depthOf m0).map (·.1) = some d) :
    Yields m fun z => maxDepth z = d := by
  cases e : depthOf m0 with
  | none => rw [e] at hu; cases hu
  | some r =>
    obtain ⟨d', l, n⟩ := r
    rw [e] at hu
    obtain ⟨z, h1, _, h2⟩ := depth_of h e
    cases hu
    exact ⟨z, n, h1, h2⟩

/-- The bounds of C55 are met: by addition, the sign (both variants), the maximum, ReLU, rounding and by
scalar multiplication (k = 1234567891 needs all 12). -/
theorem C55_bounds_met :
    Yields (ctAdd freeScheme (cloudQ 22) (inputs 0 3) (inputs 3 3)) (maxDepth · = 2) ∧
    Yields (ctAddNoisy freeScheme (cloudQ 22) (inputs 0 3) (inputs 3 3)) (maxDepth · = 1) ∧
    Yields (ctSgn freeScheme (cloudQ 100) (inputs 0 17)) (maxDepth · = Nat.clog 4 17) ∧
    Yields (ctSgn freeScheme (cloudQ 22) (inputs 0 17)) (maxDepth · = 1 + Nat.clog 4 17) ∧
    Yields (ctMax freeScheme (cloudQ 100) (inputs 0 16) (inputs 16 16)) (maxDepth · = 3 + Nat.clog 4 17) ∧
    Yields (ctRelu freeScheme (cloudQ 100) (inputs 0 17)) (maxDepth · = 1 + Nat.clog 4 17) ∧
    Yields (ctRoundAt freeScheme (cloudQ 100) (inputs 0 20) 6) (maxDepth · = Nat.clog 4 5 + 3) ∧
    Yields (ctScalarMul freeScheme (cloudQ 100) 1234567891 (inputs 0 2)) (maxDepth · = 12) := by
  have c17 : Nat.clog 4 17 = 3 := by decide +kernel
  have c5 : Nat.clog 4 5 = 2 := by decide +kernel
  have r : ∀ a n, CRel (fun (t : Term) (d : Nat) => d = t.depth) (inputs a n) (depthCt n) := by
    intro a n
    have := (samples_inputs a n).rel
    rwa [show (inputs a n).length = n by simp [inputs]] at this
  rw [c17, c5]
  exact ⟨met (depthRel.ctAdd _ (r 0 3) (r 3 3)) (by decide +kernel), met (depthRel.ctAddNoisy _ (r 0 3) (r 3 3)) (by decide +kernel),
    met (depthRel.ctSgn _ (r 0 17)) (by decide +kernel), met (depthRel.ctSgn _ (r 0 17)) (by decide +kernel),
    met (depthRel.ctMax _ (r 0 16) (r 16 16)) (by decide +kernel), met (depthRel.ctRelu _ (r 0 17)) (by decide +kernel),
    met (depthRel.ctRoundAt _ (r 0 20) 6) (by decide +kernel), met (depthRel.ctScalarMul _ (r 0 2) 1234567891) (by decide +kernel)⟩

/-! Cases of the hypotheses -/

example : Deep 2 (ctAdd freeScheme Demo.cloud (inputs 0 3) (inputs 3 5)) :=
  (C55_add Demo.cloud (d := 0) (fun w hw t e => by
    obtain ⟨_, i, h⟩ := samples_inputs 0 3 w hw
    rw [h] at e; injection e with e; subst e; exact le_refl _) (fun w hw t e => by
    obtain ⟨_, i, h⟩ := samples_inputs 3 5 w hw
    rw [h] at e; injection e with e; subst e; exact le_refl _)).1

end Parm
