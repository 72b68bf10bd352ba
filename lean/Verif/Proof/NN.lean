import Verif.Proof.ScalarMul
import Verif.Proof.Signum

/-!
# Neural networks
-/

namespace Parm

/-! ### One proof for both instances -/

/-- a notion of "runs and returns something satisfying `P`" closed under sequencing -/
structure Judge where
  J : {α : Type} → M α → (α → Prop) → Prop
  pure : ∀ {α : Type} {a : α} {P : α → Prop}, P a → J (Pure.pure a) P
  bind : ∀ {α β : Type} {m : M α} {f : α → M β} {P : α → Prop} {Q : β → Prop},
    J m P → (∀ a, P a → J (f a) Q) → J (m >>= f) Q

/-- the operations used by the evaluation implement the integer operations through `R` -/
structure Implements {T : Type} (Z : Judge) (A : Arith T) (R : T → Int → Prop) (okW okB : Int → Prop) :
    Prop where
  zero : R A.zero 0
  add : ∀ {x y v u}, R x v → R y u → Z.J (A.add x y) (fun z => R z (v + u))
  addConst : ∀ {x v k}, R x v → okB k → Z.J (A.addConst x k) (fun z => R z (v + k))
  scalarMul : ∀ {x v k}, okW k → R x v → Z.J (A.scalarMul k x) (fun z => R z (k * v))
  max : ∀ {x y v u}, R x v → R y u → Z.J (A.max x y) (fun z => R z (Max.max v u))
  relu : ∀ {x v}, R x v → Z.J (A.relu x) (fun z => R z (Max.max 0 v))

section
variable {T : Type} {Z : Judge} {A : Arith T} {R : T → Int → Prop} {okW okB : Int → Prop}

theorem Judge.mono (Z : Judge) {α : Type} {m : M α} {P Q : α → Prop} (h : Z.J m P)
    (hq : ∀ a, P a → Q a) : Z.J m Q := by
  have := Z.bind h (fun a ha => Z.pure (hq a ha))
  simpa using this

theorem affineLoop_spec (I : Implements Z A R okW okB) : ∀ (w : List Int) (a : List T) (vs : List Int),
    (∀ k ∈ w, okW k) → List.Forall₂ R a vs → ∀ {res : T} {r : Int}, R res r →
    Z.J (affineLoop A w a res) (fun z => R z (r + dotZ w vs))
  | [], a, vs, _, _, res, r, hr => by
    unfold affineLoop
    exact Z.pure (by simpa [dotZ] using hr)
  | k :: w, [], _, _, .nil, res, r, hr => by
    unfold affineLoop
    exact Z.pure (by simpa [dotZ] using hr)
  | k :: w, x :: a, v :: vs, hw, .cons hx ha, res, r, hr => by
    unfold affineLoop
    refine Z.bind (I.scalarMul (hw k (by simp)) hx) fun scm hs => ?_
    refine Z.bind (I.add hr hs) fun agg hg => ?_
    refine Z.mono (affineLoop_spec I w a vs (fun k hk => hw k (by simp [hk])) ha hg) fun z hz => ?_
    simp only [dotZ]
    rw [← add_assoc]
    exact hz

theorem affinePool_spec (I : Implements Z A R okW okB) {w : List Int} {a : List T} {vs : List Int} {b : Int}
    (hw : ∀ k ∈ w, okW k) (hb : okB b) (ha : List.Forall₂ R a vs) :
    Z.J (affinePool A w a b) (fun z => R z (dotZ w vs + b)) := by
  unfold affinePool
  refine Z.bind (affineLoop_spec I w a vs hw ha I.zero) fun res hr => ?_
  rw [zero_add] at hr
  exact I.addConst hr hb

theorem applyWeights_spec (I : Implements Z A R okW okB) : ∀ (w : List Int) (a : List T) (vs : List Int),
    (∀ k ∈ w, okW k) → List.Forall₂ R a vs →
    Z.J (applyWeights A w a) (fun z => List.Forall₂ R z (List.zipWith (· * ·) w vs))
  | [], a, vs, _, _ => by
    unfold applyWeights
    exact Z.pure (by simp)
  | k :: w, [], _, _, .nil => by
    unfold applyWeights
    exact Z.pure (by simp)
  | k :: w, x :: a, v :: vs, hw, .cons hx ha => by
    unfold applyWeights
    refine Z.bind (I.scalarMul (hw k (by simp)) hx) fun s hs => ?_
    refine Z.bind (applyWeights_spec I w a vs (fun k hk => hw k (by simp [hk])) ha) fun ss hss => ?_
    exact Z.pure (.cons hs hss)

/-- one halving round on integers -/
def chunksZ : List Int → List Int
  | a :: b :: l => max a b :: chunksZ l
  | l => l

theorem maxZ_cons (a : Int) (l : List Int) (h : l ≠ []) : maxZ (a :: l) = max a (maxZ l) := by
  cases l with
  | nil => exact absurd rfl h
  | cons b l => rfl

theorem chunksZ_ne {l : List Int} (h : l ≠ []) : chunksZ l ≠ [] := by
  match l with
  | [] => exact absurd rfl h
  | [a] => simp [chunksZ]
  | a :: b :: l => simp [chunksZ]

theorem maxZ_chunks : ∀ l : List Int, maxZ (chunksZ l) = maxZ l
  | [] => rfl
  | [a] => rfl
  | [a, b] => rfl
  | a :: b :: c :: l => by
    have ih := maxZ_chunks (c :: l)
    show maxZ (max a b :: chunksZ (c :: l)) = max a (max b (maxZ (c :: l)))
    rw [maxZ_cons _ _ (chunksZ_ne (by simp)), ih, max_assoc]

theorem length_chunksZ : ∀ l : List Int, (chunksZ l).length = (l.length + 1) / 2
  | [] => rfl
  | [a] => by simp [chunksZ]
  | a :: b :: l => by
    simp only [chunksZ, List.length_cons]
    rw [length_chunksZ l]; omega

theorem maxChunks_spec (I : Implements Z A R okW okB) : ∀ (a : List T) (vs : List Int),
    List.Forall₂ R a vs → Z.J (maxChunks A a) (fun z => List.Forall₂ R z (chunksZ vs))
  | [], _, .nil => by unfold maxChunks; exact Z.pure .nil
  | [x], [v], .cons hx .nil => by unfold maxChunks; exact Z.pure (.cons hx .nil)
  | x :: y :: a, v :: u :: vs, .cons hx (.cons hy ha) => by
    unfold maxChunks
    refine Z.bind (I.max hx hy) fun m hm => ?_
    refine Z.bind (maxChunks_spec I a vs ha) fun ms hms => ?_
    exact Z.pure (.cons hm hms)

theorem maxPoolRecursion_spec (I : Implements Z A R okW okB) : ∀ (fuel : Nat) (a : List T) (vs : List Int),
    List.Forall₂ R a vs → a.length ≤ fuel → Z.J (maxPoolRecursion A fuel a) (fun z => R z (maxZ vs))
  | _, [], _, .nil, _ => by unfold maxPoolRecursion; exact Z.pure I.zero
  | _, [x], [v], .cons hx .nil, _ => by unfold maxPoolRecursion; exact Z.pure hx
  | 0, x :: y :: a, _, _, h => by simp at h
  | fuel + 1, x :: y :: a, v :: u :: vs, h, hl => by
    unfold maxPoolRecursion
    refine Z.bind (maxChunks_spec I _ _ h) fun m hm => ?_
    rw [← maxZ_chunks]
    refine maxPoolRecursion_spec I fuel m _ hm ?_
    have e := h.length_eq
    have := hm.length_eq
    rw [length_chunksZ] at this
    simp only [List.length_cons] at *
    omega

theorem maxPool_spec (I : Implements Z A R okW okB) {w : List Int} {a : List T} {vs : List Int} {b : Int}
    (hw : ∀ k ∈ w, okW k) (hb : okB b) (ha : List.Forall₂ R a vs) :
    Z.J (maxPool A w a b) (fun z => R z (maxZ (List.zipWith (· * ·) w vs) + b)) := by
  unfold maxPool
  refine Z.bind (applyWeights_spec I w a vs hw ha) fun wa hwa => ?_
  refine Z.bind (maxPoolRecursion_spec I _ wa _ hwa (le_refl _)) fun r hr => ?_
  exact I.addConst hr hb

/-- weights and bias of a perceptron are admissible -/
def PercOk (okW okB : Int → Prop) (p : Perceptron) : Prop := (∀ k ∈ p.w, okW k) ∧ okB p.b

theorem evalPerc_spec (I : Implements Z A R okW okB) {p : Perceptron} (hp : PercOk okW okB p)
    {a : List T} {vs : List Int} (ha : List.Forall₂ R a vs) :
    Z.J (evalPerc A p a) (fun z => R z (percZ p vs)) := by
  unfold evalPerc percZ
  cases p.t with
  | MAX => exact maxPool_spec I hp.1 hp.2 ha
  | LIN => exact affinePool_spec I hp.1 hp.2 ha
  | ACT => exact Z.bind (affinePool_spec I hp.1 hp.2 ha) fun r hr => I.relu hr

theorem evalLayer_spec (I : Implements Z A R okW okB) {a : List T} {vs : List Int}
    (ha : List.Forall₂ R a vs) : ∀ (ps : List Perceptron), (∀ p ∈ ps, PercOk okW okB p) →
    Z.J (evalLayer A ps a) (fun z => List.Forall₂ R z (ps.map fun p => percZ p vs))
  | [], _ => by unfold evalLayer; exact Z.pure .nil
  | p :: ps, hp => by
    unfold evalLayer
    refine Z.bind (evalPerc_spec I (hp p (by simp)) ha) fun o ho => ?_
    refine Z.bind (evalLayer_spec I ha ps fun q hq => hp q (by simp [hq])) fun os hos => ?_
    exact Z.pure (.cons ho hos)

theorem evalLayers_spec (I : Implements Z A R okW okB) : ∀ (ls : List (List Perceptron)) (il ol : List T)
    (vs : List Int), ls ≠ [] → (∀ l ∈ ls, ∀ p ∈ l, PercOk okW okB p) → List.Forall₂ R il vs →
    Z.J (evalLayers A ls il ol) (fun z => List.Forall₂ R z (netZ ls vs))
  | [l], il, ol, vs, _, hp, ha => by
    unfold evalLayers
    refine Z.bind (evalLayer_spec I ha l (hp l (by simp))) fun o ho => ?_
    unfold evalLayers
    exact Z.pure ho
  | l :: l' :: ls, il, ol, vs, _, hp, ha => by
    unfold evalLayers
    refine Z.bind (evalLayer_spec I ha l (hp l (by simp))) fun o ho => ?_
    exact evalLayers_spec I (l' :: ls) o o _ (by simp) (fun k hk => hp k (by simp only [List.mem_cons] at *; tauto)) ho

theorem nnEval_spec (I : Implements Z A R okW okB) (nn : NeuralNetwork)
    (hp : ∀ l ∈ nn.layers, ∀ p ∈ l, PercOk okW okB p) {a : List T} {vs : List Int}
    (ha : List.Forall₂ R a vs) :
    Z.J (nn.eval A a) (fun z => List.Forall₂ R z (netZ nn.layers vs)) := by
  unfold NeuralNetwork.eval
  by_cases h : nn.layers = []
  · rw [h]
    unfold evalLayers
    exact Z.pure .nil
  · exact evalLayers_spec I _ _ _ _ h hp ha
end

/-! ### The two instances -/

/-- every execution returns -/
def judgeYields : Judge where
  J := Yields
  pure := Yields.pure
  bind := Yields.bind

/-- returns, or stops with an overflow panic -/
def judgeDebug : Judge where
  J m P := (∃ a, Returns m a 0 ∧ P a) ∨ Fails m (.panic .overflow)
  pure h := Or.inl ⟨_, Returns.pure _, h⟩
  bind h1 h2 := by
    rcases h1 with ⟨a, ha, hp⟩ | h
    · rcases h2 a hp with ⟨b, hb, hq⟩ | h
      · exact Or.inl ⟨b, ha.bind0 hb, hq⟩
      · exact Or.inr (ha.bind_fails h)
    · exact Or.inr h.bind

theorem debug_i64Op (x : Int) : judgeDebug.J (i64Op .debug x) (fun z => z = x) := by
  show (∃ a, Returns (i64Op .debug x) a 0 ∧ a = x) ∨ _
  unfold i64Op
  split_ifs
  · exact Or.inl ⟨x, Returns.pure _, rfl⟩
  · exact Or.inr (Fails.panic _)

theorem implements_i64 : Implements judgeDebug (arithI64 .debug) (fun x v => x = v) (fun _ => True)
    (fun _ => True) where
  zero := rfl
  add hx hy := by subst hx; subst hy; exact debug_i64Op _
  addConst hx _ := by subst hx; exact debug_i64Op _
  scalarMul _ hx := by subst hx; exact debug_i64Op _
  max {x y v u} hx hy := by
    subst hx; subst hy
    exact judgeDebug.pure (by rw [max_def])
  relu {x v} hx := by
    subst hx
    exact judgeDebug.pure (by rw [max_def])

section
variable {S : Scheme} {ck : ClientKey S} {pc : Cloud} {B D : Nat}

/-- an `i32` weight -/
def WeightOk (k : Int) : Prop := -2 ^ 31 ≤ k ∧ k < 2 ^ 31

/-- an `i64` bias other than `i64::MIN` -/
def BiasOk (k : Int) : Prop := -2 ^ 63 < k ∧ k < 2 ^ 63

theorem implements_ct (st : Setting S ck pc B D) (hb : pc.build = .release) (ht : TableOk pc.asc) :
    Implements judgeYields (arithCt S pc) (fun x v => Valid ck B x v)
      WeightOk BiasOk where
  zero := Valid.nil
  add {x y v u} hx hy := by
    have := (ctAdd_valid st hx hy).mono (Q := fun z => Valid ck B z (v + u)) fun _ h => h.1
    exact this
  addConst {x v k} hx hk := by
    have := (ctAddConst_valid st hx hk.1 hk.2).mono (Q := fun z => Valid ck B z (v + k)) fun _ h => h.1
    exact this
  scalarMul {x v k} hk hx := by
    have := (ctScalarMul_valid st hb ht hk.1 hk.2 hx).mono (Q := fun z => Valid ck B z (k * v)) fun _ h => h.1
    unfold arithCt judgeYields
    simp only
    exact this
  max {x y v u} hx hy := by
    have := (ctMax_valid st hx hy).mono (Q := fun z => Valid ck B z (Max.max v u)) fun _ h => h.1
    exact this
  relu {x v} hx := by
    have := (ctRelu_valid st hx).mono (Q := fun z => Valid ck B z (Max.max 0 v)) fun _ h => h.1
    exact this
end

/-! ### Release and debug plaintext evaluation -/

theorem DebugLike.i64Op (x : Int) : DebugLike (i64Op .debug x) (i64Op .release x) := by
  unfold Parm.i64Op
  split_ifs
  · exact DebugLike.pure _
  · exact Or.inr (Or.inl (Fails.panic _))

theorem DebugLike.affineLoop : ∀ (w : List Int) (a : List Int) (r : Int),
    DebugLike (affineLoop (arithI64 .debug) w a r) (affineLoop (arithI64 .release) w a r)
  | [], a, r => by unfold Parm.affineLoop; exact DebugLike.pure _
  | k :: w, [], r => by unfold Parm.affineLoop; exact DebugLike.pure _
  | k :: w, x :: a, r => by
    unfold Parm.affineLoop
    exact (DebugLike.i64Op _).bind fun s => (DebugLike.i64Op _).bind fun g => DebugLike.affineLoop w a g

theorem DebugLike.applyWeights : ∀ (w : List Int) (a : List Int),
    DebugLike (applyWeights (arithI64 .debug) w a) (applyWeights (arithI64 .release) w a)
  | [], a => by unfold Parm.applyWeights; exact DebugLike.pure _
  | k :: w, [] => by unfold Parm.applyWeights; exact DebugLike.pure _
  | k :: w, x :: a => by
    unfold Parm.applyWeights
    exact (DebugLike.i64Op _).bind fun s => (DebugLike.applyWeights w a).bind fun g => DebugLike.pure _

theorem DebugLike.maxChunks : ∀ (a : List Int),
    DebugLike (maxChunks (arithI64 .debug) a) (maxChunks (arithI64 .release) a)
  | [] => by unfold Parm.maxChunks; exact DebugLike.pure _
  | [a] => by unfold Parm.maxChunks; exact DebugLike.pure _
  | a :: b :: l => by
    unfold Parm.maxChunks
    exact (DebugLike.pure _).bind fun s => (DebugLike.maxChunks l).bind fun g => DebugLike.pure _

theorem DebugLike.maxPoolRecursion : ∀ (fuel : Nat) (a : List Int),
    DebugLike (maxPoolRecursion (arithI64 .debug) fuel a) (maxPoolRecursion (arithI64 .release) fuel a)
  | _, [] => by unfold Parm.maxPoolRecursion; exact DebugLike.pure _
  | _, [a] => by unfold Parm.maxPoolRecursion; exact DebugLike.pure _
  | 0, a :: b :: l => by unfold Parm.maxPoolRecursion; exact DebugLike.fail _
  | fuel + 1, a :: b :: l => by
    unfold Parm.maxPoolRecursion
    exact (DebugLike.maxChunks _).bind fun s => DebugLike.maxPoolRecursion fuel s

theorem DebugLike.evalPerc (p : Perceptron) (a : List Int) :
    DebugLike (evalPerc (arithI64 .debug) p a) (evalPerc (arithI64 .release) p a) := by
  unfold Parm.evalPerc
  cases p.t with
  | MAX =>
    exact (DebugLike.applyWeights _ _).bind fun wa => (DebugLike.maxPoolRecursion _ _).bind fun r =>
      DebugLike.i64Op _
  | LIN => exact (DebugLike.affineLoop _ _ _).bind fun r => DebugLike.i64Op _
  | ACT =>
    exact ((DebugLike.affineLoop _ _ _).bind fun r => DebugLike.i64Op _).bind fun r => DebugLike.pure _

theorem DebugLike.evalLayer : ∀ (ps : List Perceptron) (a : List Int),
    DebugLike (evalLayer (arithI64 .debug) ps a) (evalLayer (arithI64 .release) ps a)
  | [], a => by unfold Parm.evalLayer; exact DebugLike.pure _
  | p :: ps, a => by
    unfold Parm.evalLayer
    exact (DebugLike.evalPerc p a).bind fun o => (DebugLike.evalLayer ps a).bind fun os => DebugLike.pure _

theorem DebugLike.evalLayers : ∀ (ls : List (List Perceptron)) (il ol : List Int),
    DebugLike (evalLayers (arithI64 .debug) ls il ol) (evalLayers (arithI64 .release) ls il ol)
  | [], il, ol => by unfold Parm.evalLayers; exact DebugLike.pure _
  | l :: ls, il, ol => by
    unfold Parm.evalLayers
    exact (DebugLike.evalLayer l il).bind fun o => DebugLike.evalLayers ls o o

end Parm
