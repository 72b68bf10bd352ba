import Verif.Proof.NN
import Verif.Props.ScalarMul

/-!
# Neural networks: property C25
-/

namespace Parm
variable {S : Scheme} {ck : ClientKey S} {pc : Cloud} {B D : Nat}

/-- weights are `i32` and biases are `i64` other than `i64::MIN` -/
def NetRange (nn : NeuralNetwork) : Prop :=
  ∀ l ∈ nn.layers, ∀ p ∈ l, (∀ k ∈ p.w, -2 ^ 31 ≤ k ∧ k < 2 ^ 31) ∧ -2 ^ 63 < p.b ∧ p.b < 2 ^ 63

/-- **C25.** On valid ciphertexts the evaluation of any network returns valid ciphertexts
holding the exact integer outputs. -/
theorem C25_encrypted (st : Setting S ck pc B D) (hs : Shipped pc) {nn : NeuralNetwork} (hr : NetRange nn)
    {xs : List (Ctxt S.C)} {vs : List Int} (hx : List.Forall₂ (fun x v => Valid ck B x v) xs vs) :
    Yields (nn.eval (arithCt S pc) xs)
      (fun zs => List.Forall₂ (fun z v => Valid ck B z v) zs (netZ nn.layers vs)) :=
  nnEval_spec (Z := judgeYields) (implements_ct st hs.1 (by rw [hs.2]; exact asc12_tableOk)) nn
    (fun l hl p hp => hr l hl p hp) hx

/-- **C25.** The plaintext evaluation either returns the exact integer outputs, in both
builds, or overflows (which the debug build reports). -/
theorem C25_plaintext (nn : NeuralNetwork) (vs : List Int) :
    (Returns (nn.eval (arithI64 .debug) vs) (netZ nn.layers vs) 0 ∧
      Returns (nn.eval (arithI64 .release) vs) (netZ nn.layers vs) 0) ∨
    Fails (nn.eval (arithI64 .debug) vs) (.panic .overflow) := by
  have hf : List.Forall₂ (fun (x v : Int) => x = v) vs vs := by
    induction vs with
    | nil => exact .nil
    | cons v vs ih => exact .cons rfl ih
  rcases nnEval_spec implements_i64 nn (fun _ _ _ _ => ⟨fun _ _ => trivial, trivial⟩) hf with ⟨out, h, ho⟩ | h
  · have : out = netZ nn.layers vs := by
      have := ho
      generalize netZ nn.layers vs = l at this
      clear ho h
      induction this with
      | nil => rfl
      | cons h1 _ ih => rw [h1, ih]
    subst this
    rcases DebugLike.evalLayers nn.layers vs [] with ⟨a, a1, a2⟩ | h' | ⟨f, f1, _⟩
    · have := (h.unique a1).1
      subst this
      exact Or.inl ⟨h, a2⟩
    · exact Or.inr h'
    · exact absurd f1 fun f1 => h.not_fails f1
  · exact Or.inr h

/-- **C25.** If the plaintext evaluation does not overflow and returns `out`, the encrypted
evaluation returns valid ciphertexts of `out`. -/
theorem C25_agree (st : Setting S ck pc B D) (hs : Shipped pc) {nn : NeuralNetwork} (hr : NetRange nn)
    {xs : List (Ctxt S.C)} {vs out : List Int} (hx : List.Forall₂ (fun x v => Valid ck B x v) xs vs)
    (hout : Returns (nn.eval (arithI64 .debug) vs) out 0) :
    Yields (nn.eval (arithCt S pc) xs) (fun zs => List.Forall₂ (fun z v => Valid ck B z v) zs out) := by
  rcases C25_plaintext nn vs with ⟨h, _⟩ | h
  · rw [(hout.unique h).1]
    exact C25_encrypted st hs hr hx
  · exact absurd h fun h => hout.not_fails h

/-- Case: two layers with all three kinds of perceptrons. -/
def demoNet : NeuralNetwork :=
  ⟨[[⟨.LIN, [1, -2], 3⟩, ⟨.ACT, [-7, 100], 0⟩, ⟨.MAX, [1, 1], -1⟩], [⟨.MAX, [2, -1, 5000], 10⟩, ⟨.LIN, [1], 0⟩]]⟩

example : NetRange demoNet := by
  unfold NetRange demoNet
  decide
example : Returns (demoNet.eval (arithI64 .debug) [5, -6]) [20010, 20] 0 := Returns.run fun s => ⟨s.region, rfl⟩
example : Yields (demoNet.eval (arithCt Demo.scheme Demo.cloud12) [Demo.encVec [1, 0, 1], Demo.encVec [0, 1, 0, -1]])
    (fun zs => List.Forall₂ (fun z v => Valid Demo.ck (2 ^ 53) z v) zs [20010, 20]) :=
  C25_agree Demo.st12 Demo.shipped12 (by unfold NetRange demoNet; decide)
    (.cons Demo.valid5 (.cons Demo.validm6 .nil)) <| Returns.run fun s => ⟨s.region, rfl⟩

/-- The plaintext evaluation does overflow for some networks. -/
example : Fails ((⟨[[⟨.LIN, [2147483647, 2147483647, 2147483647], 0⟩]]⟩ : NeuralNetwork).eval (arithI64 .debug)
    [2147483647, 2147483647, 2147483647]) (.panic .overflow) := fun _ => rfl

end Parm
