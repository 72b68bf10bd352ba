import Verif.Fine.Link
import Verif.Props.Schedule
import Verif.Props.NN

/-!
# Interleaved tasks: property C69

`Fine.x` is the function `x` of the model with tasks whose bootstraps can be interleaved
(`Verif/Fine`); `Proc.AlwaysReturns` and `Proc.AlwaysFaults` speak about every sequence of steps, a
step being one step of any task of any active region.
-/

namespace Parm
open Proc (AlwaysReturns AlwaysFaults)

/-- one run of the model with atomic tasks decides what every interleaving does -/
def DecidesAll {α : Type} (p : Proc α) (m : M α) : Prop :=
  (∀ (s s' : St) (a : α), m s = .ok (a, s') → s.pbs ≤ s'.pbs ∧ AlwaysReturns p a (s'.pbs - s.pbs)) ∧
  (∀ (s : St) (f : Fault), m s = .error f → AlwaysFaults p)

theorem Fine.Runs.decides {α : Type} {p : Proc α} {m : M α} (h : Fine.Runs p m) : DecidesAll p m := by
  constructor
  · intro s s' a hm
    have := h.out s
    rw [hm] at this
    obtain ⟨n, hn, he⟩ := this
    refine ⟨by omega, ?_⟩
    rw [show s'.pbs - s.pbs = n by omega]
    exact he.always
  · intro s f hm
    have := h.out s
    rw [hm] at this
    exact Proc.Bad.always this

theorem DecidesAll.returns {α : Type} {p : Proc α} {m : M α} (h : DecidesAll p m) {a : α} {n : Nat}
    (hr : Returns m a n) : AlwaysReturns p a n := by
  obtain ⟨r, rep, _, hs⟩ := hr (St.init .seq)
  have := (h.1 _ _ _ hs).2
  simpa [St.init] using this

theorem DecidesAll.yields {α : Type} {p : Proc α} {m : M α} (h : DecidesAll p m) {Q : α → Prop}
    (hr : Yields m Q) : ∃ a n, AlwaysReturns p a n ∧ Q a := by
  obtain ⟨a, n, hr, hq⟩ := hr
  exact ⟨a, n, h.returns hr, hq⟩

section
variable (S : Scheme) (pc : Cloud)

/-- **C69**, every operation of the arithmetic interface on arbitrary (possibly invalid) operands:
whatever the interleaving of the bootstraps of its tasks, it ends, with the same ciphertext and after
the same number of bootstraps as in any run with atomic tasks — or with a failure, if that run
fails. -/
theorem C69_operation (ins : Instr) (xs : List (Ctxt S.C)) :
    DecidesAll (Fine.Instr.run (Fine.arithCt S pc) xs ins) (ins.run (arithCt S pc) xs) :=
  (Fine.Runs.instrRun (Fine.Runs.arithCt S pc) xs ins).decides

/-- **C69**, the operations without final refresh. -/
theorem C69_noisy (x y : Ctxt S.C) :
    DecidesAll (Fine.ctAddNoisy S pc x y) (ctAddNoisy S pc x y) ∧
    DecidesAll (Fine.ctSubNoisy S pc x y) (ctSubNoisy S pc x y) :=
  ⟨(Fine.Runs.ctAddNoisy S pc x y).decides, (Fine.Runs.ctSubNoisy S pc x y).decides⟩

/-- **C69**, whole programs. -/
theorem C69_program (p : List Instr) (xs : List (Ctxt S.C)) :
    DecidesAll (Fine.runProg (Fine.arithCt S pc) p xs) (runProg (arithCt S pc) p xs) :=
  (Fine.Runs.runProg (Fine.Runs.arithCt S pc) p xs).decides

/-- **C69**, neural networks. -/
theorem C69_network (nn : NeuralNetwork) (xs : List (Ctxt S.C)) :
    DecidesAll (Fine.NeuralNetwork.eval (Fine.arithCt S pc) nn xs) (nn.eval (arithCt S pc) xs) :=
  (Fine.Runs.nnEval (Fine.Runs.arithCt S pc) nn xs).decides

end

section
variable {S : Scheme} {ck : ClientKey S} {pc : Cloud} {B D : Nat}

/-- **C69** with **C44**: every interleaving of the tasks of a program ends with valid ciphertexts of
the exact values, the same ciphertexts in every interleaving. -/
theorem C69_values (st : Setting S ck pc B D) (p : List Instr) (hs : ScalarsOk pc p)
    {xs : List (Ctxt S.C)} {vs : List Int} (h : ValidRegs ck B xs vs) {ls ls' : List Nat}
    (hl : ls.length = xs.length) (hle : ∀ i (h : i < xs.length), xs[i].length ≤ ls.getD i 0)
    (hwf : wfProg p xs.length) (hlen : lenProg p ls = some ls') :
    ∃ zs n, AlwaysReturns (Fine.runProg (Fine.arithCt S pc) p xs) zs n ∧ ValidRegs ck B zs (valProg p vs) :=
  (C69_program S pc p xs).yields
    ((C44_program st .release p hs h hl hle hwf hlen).imp fun _ ⟨n, h1, h2⟩ => ⟨n, h1, h2.1⟩)

/-- **C69** with **C25**: every interleaving of the tasks of a network ends with valid ciphertexts of
the exact outputs. -/
theorem C69_network_values (st : Setting S ck pc B D) (hs : Shipped pc) {nn : NeuralNetwork} (hr : NetRange nn)
    {xs : List (Ctxt S.C)} {vs : List Int} (hx : List.Forall₂ (fun x v => Valid ck B x v) xs vs) :
    ∃ zs n, AlwaysReturns (Fine.NeuralNetwork.eval (Fine.arithCt S pc) nn xs) zs n ∧
      List.Forall₂ (fun z v => Valid ck B z v) zs (netZ nn.layers vs) :=
  (C69_network S pc nn xs).yields (C25_encrypted st hs hr hx)

end

/-! ### Cases -/

/-- Two tasks of two bootstraps each: an interleaving that switches after every bootstrap, which no
order of atomic tasks gives. -/
example : Proc.Exec (Fine.par2 (Proc.pbs (Proc.pbs (Proc.ret 1))) (Proc.pbs (Proc.pbs (Proc.ret 2)))) 5 4
    (Proc.ret ((1 : Nat), (2 : Nat))) :=
  .step (.left (.pbs _)) <| .step (.right (.pbs _)) <| .step (.left (.pbs _)) <| .step (.right (.pbs _)) <|
    .step .join2 <| .refl _

/-- A task fails while the other one has a bootstrap left: both ways to go on end in the failure. -/
example : AlwaysFaults (Fine.par2 (Proc.fault (.panic .index) : Proc Nat) (Proc.pbs (Proc.ret 2))) :=
  Proc.Bad.always (.left (.fault _))

example : ∃ zs n, AlwaysReturns (Fine.runProg (Fine.arithCt Demo.scheme Demo.cloud12) demoProg
      [Demo.encVec [1, 0, 1], Demo.encVec [0, 1, 0, -1]]) zs n ∧
    ValidRegs Demo.ck (2 ^ 53) zs [5, -6, -1, 25, -25, 35, 35, -60, -56, -1, -101, -404, 0, 60, 60] :=
  C69_values Demo.st12 demoProg (Or.inr Demo.shipped12) (vs := [5, -6]) (ls := [3, 4])
    ⟨rfl, fun i hi => by
      have : i = 0 ∨ i = 1 := by simp at hi; omega
      rcases this with rfl | rfl
      · exact Demo.valid5
      · exact Demo.validm6⟩ rfl
    (fun i hi => by
      have : i = 0 ∨ i = 1 := by simp at hi; omega
      rcases this with rfl | rfl <;> simp [Demo.encVec]) (by decide) (ls' := [3, 4, 5, 6, 12, 13, 13, 14, 15, 1, 8, 10, 10, 14, 15]) (by decide)

end Parm
