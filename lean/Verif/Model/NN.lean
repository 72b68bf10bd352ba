import Verif.Model.ScalarMul

/-!
# Model of `/repo/src/cloudovo/neural_network.rs`
-/

namespace Parm

/-- `PercType`, `/repo/src/cloudovo/neural_network.rs:58-65` -/
inductive PercType where
  | MAX
  | LIN
  | ACT
  deriving DecidableEq, Repr

/-- `Perceptron`, `/repo/src/cloudovo/neural_network.rs:68-75` -/
structure Perceptron where
  t : PercType
  w : List Int
  b : Int
  deriving Repr

/-- `NeuralNetwork`, `/repo/src/cloudovo/neural_network.rs:78-86` (`n_inputs` is not read by
the evaluation) -/
structure NeuralNetwork where
  layers : List (List Perceptron)
  deriving Repr

variable {T : Type} (A : Arith T)

/-- loop of `affine_pool`, `neural_network.rs:172-180` -/
def affineLoop : List Int → List T → T → M T
  | wi :: ws, ai :: as, res => do
    let scm ← A.scalarMul wi ai
    let agg ← A.add res scm
    affineLoop ws as agg
  | _, _, res => pure res

/-- `affine_pool`, `/repo/src/cloudovo/neural_network.rs:157-186` -/
def affinePool (w : List Int) (a : List T) (b : Int) : M T := do
  let res ← affineLoop A w a A.zero
  A.addConst res b

/-- weights of `max_pool`, `neural_network.rs:199-201` -/
def applyWeights : List Int → List T → M (List T)
  | wi :: ws, ai :: as => do
    let v ← A.scalarMul wi ai
    let vs ← applyWeights ws as
    pure (v :: vs)
  | _, _ => pure []

/-- one halving round of `max_pool_recursion`, `neural_network.rs:222-229` -/
def maxChunks : List T → M (List T)
  | a :: b :: rest => do
    let m ← A.max a b
    let ms ← maxChunks rest
    pure (m :: ms)
  | [a] => pure [a]
  | [] => pure []

/-- `max_pool_recursion`, `/repo/src/cloudovo/neural_network.rs:210-232`, on `fuel` -/
def maxPoolRecursion : Nat → List T → M T
  | _, [] => pure A.zero
  | _, [a] => pure a
  | 0, _ => M.panic .fuel
  | fuel + 1, a => do
    let h ← maxChunks A a
    maxPoolRecursion fuel h

/-- `max_pool`, `/repo/src/cloudovo/neural_network.rs:188-208` -/
def maxPool (w : List Int) (a : List T) (b : Int) : M T := do
  let wa ← applyWeights A w a
  let res ← maxPoolRecursion A wa.length wa
  A.addConst res b

/-- one perceptron, `neural_network.rs:136-151`; `act_fn` is ReLU (`:234-240`) -/
def evalPerc (p : Perceptron) (input : List T) : M T :=
  match p.t with
  | .MAX => maxPool A p.w input p.b
  | .LIN => affinePool A p.w input p.b
  | .ACT => do
    let aff ← affinePool A p.w input p.b
    A.relu aff

/-- `eval_layer`, `/repo/src/cloudovo/neural_network.rs:120-155` -/
def evalLayer : List Perceptron → List T → M (List T)
  | [], _ => pure []
  | p :: ps, input => do
    let o ← evalPerc A p input
    let os ← evalLayer ps input
    pure (o :: os)

/-- loop of `eval`, `neural_network.rs:103-112`: state `(il, ol)` -/
def evalLayers : List (List Perceptron) → (il ol : List T) → M (List T)
  | [], _, ol => pure ol
  | l :: ls, il, _ => do
    let ol ← evalLayer A l il
    evalLayers ls ol ol

/-- `NeuralNetwork::eval`, `/repo/src/cloudovo/neural_network.rs:91-117` -/
def NeuralNetwork.eval (nn : NeuralNetwork) (inputs : List T) : M (List T) :=
  evalLayers A nn.layers inputs []

end Parm
