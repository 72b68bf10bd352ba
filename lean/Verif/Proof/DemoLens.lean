import Verif.Model.Demos
import Verif.Proof.Lengths

/-!
# The numbers of words of the outputs of `arrhythmia_nn` (property C58)
-/

namespace Parm
open Wt

/-- the result of a computation that neither bootstraps nor depends on the schedule -/
def outcome {α : Type} (m : M α) : Option α :=
  match m (St.init Sched.seq) with
  | .ok (a, _) => some a
  | .error _ => none

theorem Pure0.returns {α : Type} {m : M α} (h : Pure0 m) {a : α} (e : outcome m = some a) : Returns m a 0 := by
  unfold outcome at e
  rcases h with ⟨b, hb⟩ | h
  · obtain ⟨r, l, _, hr⟩ := hb (St.init Sched.seq)
    rw [hr] at e
    injection e with e
    exact e ▸ hb
  · obtain ⟨f, hf⟩ := h (St.init Sched.seq)
    rw [hf] at e
    cases e

theorem Pure0.orFail {α : Type} (o : Option α) : Pure0 (orFail o) := by
  cases o
  · exact Pure0.panic _
  · exact Pure0.pure _

theorem pure0_lenScalarMul (pc : Cloud) (k : Int) (n : Nat) : Pure0 ((arithLen pc).scalarMul k n) := by
  show Pure0 (lenScalarMul pc k n)
  unfold lenScalarMul
  exact Pure0.ite (Pure0.pure _) (Pure0.ite (Pure0.pure _) (Pure0.ite (Pure0.panic _)
    ((Pure0.windShifts _ _ _).bind fun _ => Pure0.orFail _)))

theorem pure0_lenAddConst (pc : Cloud) (k : Int) (n : Nat) : Pure0 ((arithLen pc).addConst n k) := by
  show Pure0 (lenAddConst n k)
  unfold lenAddConst
  exact Pure0.ite (Pure0.pure _) (Pure0.ite (Pure0.panic _) (Pure0.pure _))

theorem pure0_affineLoop (pc : Cloud) : ∀ (w : List Int) (ns : List Nat) (r : Nat), Pure0 (affineLoop (arithLen pc) w ns r)
  | [], _, _ => Pure0.pure _
  | _ :: _, [], _ => Pure0.pure _
  | _ :: w, _ :: ns, _ => (pure0_lenScalarMul pc _ _).bind fun _ => (Pure0.pure _).bind fun _ => pure0_affineLoop pc w ns _

theorem pure0_applyWeights (pc : Cloud) : ∀ (w : List Int) (ns : List Nat), Pure0 (applyWeights (arithLen pc) w ns)
  | [], _ => Pure0.pure _
  | _ :: _, [] => Pure0.pure _
  | _ :: w, _ :: ns => (pure0_lenScalarMul pc _ _).bind fun _ => (pure0_applyWeights pc w ns).bind fun _ => Pure0.pure _

theorem pure0_maxChunks (pc : Cloud) : ∀ (ns : List Nat), Pure0 (maxChunks (arithLen pc) ns)
  | [] => Pure0.pure _
  | [_] => Pure0.pure _
  | _ :: _ :: ns => (Pure0.pure _).bind fun _ => (pure0_maxChunks pc ns).bind fun _ => Pure0.pure _

theorem pure0_maxPoolRecursion (pc : Cloud) : ∀ (fuel : Nat) (ns : List Nat), Pure0 (maxPoolRecursion (arithLen pc) fuel ns)
  | fuel, [] => by unfold maxPoolRecursion; exact Pure0.pure _
  | fuel, [_] => by unfold maxPoolRecursion; exact Pure0.pure _
  | 0, _ :: _ :: _ => Pure0.panic _
  | fuel + 1, _ :: _ :: _ => by
    unfold maxPoolRecursion
    exact (pure0_maxChunks pc _).bind fun _ => pure0_maxPoolRecursion pc fuel _

theorem pure0_evalPerc (pc : Cloud) (p : Perceptron) (ns : List Nat) : Pure0 (evalPerc (arithLen pc) p ns) := by
  unfold evalPerc
  have h : Pure0 (affinePool (arithLen pc) p.w ns p.b) :=
    (pure0_affineLoop pc _ _ _).bind fun _ => pure0_lenAddConst pc _ _
  cases p.t
  · exact (pure0_applyWeights pc _ _).bind fun _ => (pure0_maxPoolRecursion pc _ _).bind fun _ => pure0_lenAddConst pc _ _
  · exact h
  · exact h.bind fun _ => Pure0.pure _

theorem pure0_evalLayer (pc : Cloud) (ns : List Nat) : ∀ l : List Perceptron, Pure0 (evalLayer (arithLen pc) l ns)
  | [] => Pure0.pure _
  | p :: l => (pure0_evalPerc pc p ns).bind fun _ => (pure0_evalLayer pc ns l).bind fun _ => Pure0.pure _

/-- the numbers of words only depend on the build and the chain table -/
theorem arithLen_congr {pc pc' : Cloud} (hb : pc.build = pc'.build) (ha : pc.asc = pc'.asc) : arithLen pc = arithLen pc' := by
  unfold arithLen lenScalarMul
  rw [hb, ha]

theorem evalLayer_append {T : Type} (A : Arith T) (xs : List T) (l' : List Perceptron) : ∀ l : List Perceptron,
    evalLayer A (l ++ l') xs = (do
      let os ← evalLayer A l xs
      let os' ← evalLayer A l' xs
      pure (os ++ os'))
  | [] => by simp [evalLayer]
  | p :: l => by simp [evalLayer, evalLayer_append A xs l' l]

/-- the cloud data of the shipped library, for evaluation -/
def shippedCloud : Cloud := ⟨Params.M4C0, 32, 1, 2048, asc12, .release⟩

set_option Elab.async false
set_option maxRecDepth 100000

/-- first layer of `arrhythmia_nn` -/
def arrL1 : List Perceptron := arrhythmiaNn.layers.getD 0 []
/-- second layer of `arrhythmia_nn` -/
def arrL2 : List Perceptron := arrhythmiaNn.layers.getD 1 []

private theorem a1 : outcome (evalLayer (arithLen shippedCloud) (arrL1.take 10) (List.replicate 16 11)) =
    some [38, 37, 36, 37, 37, 40, 38, 39, 39, 39] := by decide +kernel
private theorem a2 : outcome (evalLayer (arithLen shippedCloud) ((arrL1.drop 10).take 10) (List.replicate 16 11)) =
    some [37, 39, 39, 37, 39, 39, 40, 38, 39, 40] := by decide +kernel
private theorem a3 : outcome (evalLayer (arithLen shippedCloud) ((arrL1.drop (10 + 10)).take 10) (List.replicate 16 11)) =
    some [37, 39, 40, 39, 39, 38, 41, 39, 39, 40] := by decide +kernel
private theorem a4 : outcome (evalLayer (arithLen shippedCloud) (arrL1.drop (10 + 10 + 10)) (List.replicate 16 11)) =
    some [39, 41, 37, 37, 39, 38, 39, 40] := by decide +kernel

/-- numbers of words after the first layer -/
def arrMid : List Nat := [38, 37, 36, 37, 37, 40, 38, 39, 39, 39] ++ ([37, 39, 39, 37, 39, 39, 40, 38, 39, 40] ++
  ([37, 39, 40, 39, 39, 38, 41, 39, 39, 40] ++ [39, 41, 37, 37, 39, 38, 39, 40]))

private theorem b1 : outcome (evalLayer (arithLen shippedCloud) (arrL2.take 4) arrMid) = some [88, 88, 86, 90] := by decide +kernel
private theorem b2 : outcome (evalLayer (arithLen shippedCloud) ((arrL2.drop 4).take 4) arrMid) = some [86, 90, 88, 88] := by
  decide +kernel
private theorem b3 : outcome (evalLayer (arithLen shippedCloud) ((arrL2.drop (4 + 4)).take 4) arrMid) = some [86, 86, 90, 90] := by
  decide +kernel
private theorem b4 : outcome (evalLayer (arithLen shippedCloud) (arrL2.drop (4 + 4 + 4)) arrMid) = some [88, 86, 89, 86] := by decide +kernel

/-- numbers of words of the outputs -/
def arrOut : List Nat := [88, 88, 86, 90] ++ ([86, 90, 88, 88] ++ ([86, 86, 90, 90] ++ [88, 86, 89, 86]))

private theorem split4 (a b c : Nat) (l : List Perceptron) :
    l = l.take a ++ ((l.drop a).take b ++ ((l.drop (a + b)).take c ++ l.drop (a + b + c))) := by
  rw [← List.drop_drop (i := c), List.take_append_drop, ← List.drop_drop (i := b), List.take_append_drop, List.take_append_drop]

private theorem eval4 {A : Arith Nat} {xs o1 o2 o3 o4 : List Nat} {l1 l2 l3 l4 : List Perceptron}
    (h1 : Returns (evalLayer A l1 xs) o1 0) (h2 : Returns (evalLayer A l2 xs) o2 0) (h3 : Returns (evalLayer A l3 xs) o3 0)
    (h4 : Returns (evalLayer A l4 xs) o4 0) :
    Returns (evalLayer A (l1 ++ (l2 ++ (l3 ++ l4))) xs) (o1 ++ (o2 ++ (o3 ++ o4))) 0 := by
  simp only [evalLayer_append, bind_assoc, pure_bind]
  exact h1.bind0 (h2.bind0 (h3.bind0 (h4.bind0 (Returns.pure _))))

private theorem ret {l : List Perceptron} {ns os : List Nat} (h : outcome (evalLayer (arithLen shippedCloud) l ns) = some os) :
    Returns (evalLayer (arithLen shippedCloud) l ns) os 0 := (pure0_evalLayer shippedCloud ns l).returns h

theorem arrhythmia_layers : arrhythmiaNn.layers = [arrL1, arrL2] := rfl

theorem arrL1_len : Returns (evalLayer (arithLen shippedCloud) arrL1 (List.replicate 16 11)) arrMid 0 := by
  have h := eval4 (ret a1) (ret a2) (ret a3) (ret a4)
  rwa [← split4] at h

theorem arrL2_len : Returns (evalLayer (arithLen shippedCloud) arrL2 arrMid) arrOut 0 := by
  have h := eval4 (ret b1) (ret b2) (ret b3) (ret b4)
  rwa [← split4] at h

private theorem eval2 {A : Arith Nat} {xs o1 o2 : List Nat} {l1 l2 : List Perceptron}
    (h1 : Returns (evalLayer A l1 xs) o1 0) (h2 : Returns (evalLayer A l2 o1) o2 0) :
    Returns (evalLayers A [l1, l2] xs []) o2 0 := h1.bind0 (h2.bind0 (Returns.pure _))

theorem arrhythmia_len : Returns (arrhythmiaNn.eval (arithLen shippedCloud) (List.replicate 16 11)) arrOut 0 := by
  unfold NeuralNetwork.eval
  rw [arrhythmia_layers]
  exact eval2 arrL1_len arrL2_len

end Parm
