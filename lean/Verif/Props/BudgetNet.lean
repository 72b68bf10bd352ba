import Verif.Props.Budget
import Verif.Props.NN

/-!
# The noise budget of neural networks (C85)

A network without activation and without maxima needs only the budget of additions, whatever `quad_weight`.
-/

namespace Parm

/-- the multiple of the fresh noise a perceptron needs, by `quad_weight` -/
def Perceptron.budget (q : Nat) (p : Perceptron) : Nat :=
  match p.t with
  | .LIN => 8
  | .ACT => if 85 ≤ q then 15 else 8
  | .MAX => if 85 ≤ q then 15 else if 41 ≤ q then 9 else 8

/-! ### Only the operations used matter -/

section
variable {T : Type} {A A' : Arith T}

/-- the operations of all perceptrons agree -/
structure SameBase (A A' : Arith T) : Prop where
  zero : A.zero = A'.zero
  add : A.add = A'.add
  addConst : A.addConst = A'.addConst
  scalarMul : A.scalarMul = A'.scalarMul

theorem SameBase.affineLoop (h : SameBase A A') : ∀ (w : List Int) (a : List T) (r : T),
    affineLoop A w a r = affineLoop A' w a r
  | [], _, _ => by unfold Parm.affineLoop; rfl
  | _ :: _, [], _ => by unfold Parm.affineLoop; rfl
  | k :: w, x :: a, r => by
    unfold Parm.affineLoop
    rw [h.scalarMul, h.add]
    exact bind_congr fun s => bind_congr fun g => h.affineLoop w a g

theorem SameBase.affinePool (h : SameBase A A') (w : List Int) (a : List T) (b : Int) :
    affinePool A w a b = affinePool A' w a b := by
  unfold Parm.affinePool
  rw [h.affineLoop, h.zero, h.addConst]

theorem SameBase.applyWeights (h : SameBase A A') : ∀ (w : List Int) (a : List T),
    applyWeights A w a = applyWeights A' w a
  | [], _ => by unfold Parm.applyWeights; rfl
  | _ :: _, [] => by unfold Parm.applyWeights; rfl
  | k :: w, x :: a => by
    unfold Parm.applyWeights
    rw [h.scalarMul, h.applyWeights w a]

theorem maxChunks_congr (h : A.max = A'.max) : ∀ a : List T, maxChunks A a = maxChunks A' a
  | [] => by unfold maxChunks; rfl
  | [_] => by unfold maxChunks; rfl
  | x :: y :: a => by
    unfold maxChunks
    rw [h, maxChunks_congr h a]

theorem SameBase.maxPoolRecursion (h : SameBase A A') (hm : A.max = A'.max) : ∀ (fuel : Nat) (a : List T),
    maxPoolRecursion A fuel a = maxPoolRecursion A' fuel a
  | _, [] => by unfold Parm.maxPoolRecursion; rw [h.zero]
  | _, [_] => by unfold Parm.maxPoolRecursion; rfl
  | 0, _ :: _ :: _ => by unfold Parm.maxPoolRecursion; rfl
  | fuel + 1, x :: y :: a => by
    unfold Parm.maxPoolRecursion
    rw [maxChunks_congr hm]
    exact bind_congr fun s => h.maxPoolRecursion hm fuel s

theorem SameBase.evalPerc (h : SameBase A A') {p : Perceptron} (hm : p.t = .MAX → A.max = A'.max)
    (hr : p.t = .ACT → A.relu = A'.relu) (a : List T) : evalPerc A p a = evalPerc A' p a := by
  unfold Parm.evalPerc
  cases ht : p.t with
  | MAX =>
    simp only
    unfold maxPool
    rw [h.applyWeights, h.addConst]
    exact bind_congr fun wa => by rw [h.maxPoolRecursion (hm ht)]
  | LIN => exact h.affinePool _ _ _
  | ACT =>
    simp only
    rw [h.affinePool, hr ht]

theorem SameBase.evalLayer (h : SameBase A A') : ∀ (ps : List Perceptron)
    (_ : ∀ p ∈ ps, (p.t = .MAX → A.max = A'.max) ∧ (p.t = .ACT → A.relu = A'.relu)) (a : List T),
    evalLayer A ps a = evalLayer A' ps a
  | [], _, _ => by unfold Parm.evalLayer; rfl
  | p :: ps, hp, a => by
    unfold Parm.evalLayer
    rw [h.evalPerc (hp p (by simp)).1 (hp p (by simp)).2, h.evalLayer ps (fun q hq => hp q (by simp [hq])) a]

theorem SameBase.evalLayers (h : SameBase A A') : ∀ (ls : List (List Perceptron))
    (_ : ∀ l ∈ ls, ∀ p ∈ l, (p.t = .MAX → A.max = A'.max) ∧ (p.t = .ACT → A.relu = A'.relu)) (il ol : List T),
    evalLayers A ls il ol = evalLayers A' ls il ol
  | [], _, _, _ => by unfold Parm.evalLayers; rfl
  | l :: ls, hp, il, ol => by
    unfold Parm.evalLayers
    rw [h.evalLayer l (hp l (by simp))]
    exact bind_congr fun o => h.evalLayers ls (fun k hk => hp k (by simp [hk])) o o

end

/-! ### Sufficient budgets -/

section
variable {S : Scheme} {ck : ClientKey S} {pc : Cloud} {B D t : Nat}

theorem sameBase_agree {pc' : Cloud} (h : CloudAgree S pc pc') (hb : pc.build = pc'.build) (ha : pc.asc = pc'.asc)
    (hp : pc.params.bitPrecision = pc'.params.bitPrecision) : SameBase (arithCt S pc) (arithCt S pc') where
  zero := rfl
  add := by
    unfold arithCt ascArith
    funext x y
    exact h.add x y
  addConst := by
    unfold arithCt ascArith
    funext x k
    exact h.addConst hb hp x k
  scalarMul := by
    unfold arithCt ascArith
    funext k x
    simp only [h.scalarMul hb ha]

/-- the operations of `pc`, where maxima and ReLU are those for `quad_weight` 40 unless they are needed -/
def netArith (S : Scheme) (pc : Cloud) (useMax useRelu : Bool) : Arith (Ctxt S.C) :=
  { arithCt S pc with
    max := if useMax then (arithCt S pc).max else (arithCt S (pc.withWeight 40)).max
    relu := if useRelu then (arithCt S pc).relu else (arithCt S (pc.withWeight 40)).relu }

theorem implements_budget (h8 : 8 ≤ t) (hb : Budget S ck pc B D t) (hs : Shipped pc) {useMax useRelu : Bool}
    (hm : useMax = true → tolWeight pc.params.quadWeight ≤ t)
    (hr : useRelu = true → (if 85 ≤ pc.params.quadWeight then 15 else 8) ≤ t) :
    Implements judgeYields (netArith S pc useMax useRelu) (fun x v => Valid ck B x v) WeightOk BiasOk := by
  have st : Setting S ck (pc.withWeight 40) B D := hb.withWeight h8
  have I := implements_ct st hs.1 (by show TableOk pc.asc; rw [hs.2]; exact asc12_tableOk)
  have hbase := sameBase_agree (CloudAgree.withWeight S pc 40) rfl rfl rfl
  refine ⟨I.zero, fun {x y v u} hx hy => ?_, fun {x v k} hx hk => ?_, fun {x v k} hk hx => ?_, fun {x y v u} hx hy => ?_,
    fun {x v} hx => ?_⟩
  · show judgeYields.J ((arithCt S pc).add x y) _
    rw [hbase.add]
    exact I.add hx hy
  · show judgeYields.J ((arithCt S pc).addConst x k) _
    rw [hbase.addConst]
    exact I.addConst hx hk
  · show judgeYields.J ((arithCt S pc).scalarMul k x) _
    rw [hbase.scalarMul]
    exact I.scalarMul hk hx
  · cases useMax with
    | false => exact (ctMax_valid st hx hy).mono fun _ h => h.1
    | true =>
      have st' : Setting S ck pc B D := hb.withWeight (q := pc.params.quadWeight) (hm rfl)
      exact (ctMax_valid st' hx hy).mono fun _ h => h.1
  · cases useRelu with
    | false => exact (ctRelu_valid st hx).mono fun _ h => h.1
    | true =>
      by_cases hw : tolWeight pc.params.quadWeight ≤ t
      · have st' : Setting S ck pc B D := hb.withWeight (q := pc.params.quadWeight) hw
        exact (ctRelu_valid st' hx).mono fun _ h => h.1
      · have h1 := hr rfl
        unfold tolWeight at hw
        have h85 : pc.params.quadWeight < 85 := by
          by_contra hc
          rw [if_pos (by omega)] at h1 hw
          omega
        have h41 : 41 ≤ pc.params.quadWeight := by
          by_contra hc
          rw [if_neg (by omega), if_neg (by omega)] at hw
          omega
        exact (ctRelu_direct st h41 h85 hx).mono fun _ h => h.1

/-- **C85.** A network is evaluated correctly, and its outputs decrypt to the exact values, if the noise stays within the
budget of each of its perceptrons. -/
theorem C85_network (h8 : 8 ≤ t) (hb : Budget S ck pc B D t) (hs : Shipped pc) (build : Build) {nn : NeuralNetwork}
    (hr : NetRange nn) (ht : ∀ l ∈ nn.layers, ∀ p ∈ l, p.budget pc.params.quadWeight ≤ t)
    {xs : List (Ctxt S.C)} {vs : List Int} (hx : List.Forall₂ (fun x v => Valid ck B x v) xs vs) :
    Yields (nn.eval (arithCt S pc) xs) (fun zs => List.Forall₂ (fun z v => Valid ck B z v ∧
      (z.length ≤ 63 → Returns (parmDecrypt ck build z) v 0)) zs (netZ nn.layers vs)) := by
  obtain ⟨um, hum⟩ : ∃ u : Bool, u = decide (tolWeight pc.params.quadWeight ≤ t) := ⟨_, rfl⟩
  obtain ⟨ur, hur⟩ : ∃ u : Bool, u = decide ((if 85 ≤ pc.params.quadWeight then 15 else 8) ≤ t) := ⟨_, rfl⟩
  have I := implements_budget (useMax := um) (useRelu := ur) h8 hb hs (by rw [hum]; simp) (by rw [hur]; simp)
  have hbase : SameBase (arithCt S pc) (netArith S pc um ur) := ⟨rfl, rfl, rfl, rfl⟩
  unfold NeuralNetwork.eval
  rw [hbase.evalLayers nn.layers fun l hl p hp => ?_]
  · refine (nnEval_spec (Z := judgeYields) I nn (fun l hl p hp => hr l hl p hp) hx).mono fun zs hzs => ?_
    exact hzs.imp fun z v hz => ⟨hz, fun h63 => hz.decrypt (hb.withWeight (q := 40) h8) build h63⟩
  · have h := ht l hl p hp
    unfold Perceptron.budget at h
    refine ⟨fun e => ?_, fun e => ?_⟩
    · rw [e] at h
      have : um = true := by
        rw [hum, decide_eq_true_eq]
        exact h
      rw [this]
      rfl
    · rw [e] at h
      have : ur = true := by
        rw [hur, decide_eq_true_eq]
        exact h
      rw [this]
      rfl

end

/-! ### The budgets cannot be lowered -/

namespace Tight

/-- a network of one perceptron on the inputs, then the decryption -/
def netResult (t q : Nat) (p : Perceptron) (xs : List (Ctxt (scheme (noise t) (drift t)).C)) : M (List Int) := do
  let zs ← NeuralNetwork.eval (arithCt (scheme (noise t) (drift t)) (shipped q)) ⟨[[p]]⟩ xs
  zs.mapM (parmDecrypt (ck (noise t) (drift t)) (shipped q).build)

theorem netResult_eq {t q q' : Nat} {p : Perceptron} (h85 : p.t ≠ .LIN → (q ≥ 85 ↔ q' ≥ 85))
    (h41 : p.t ≠ .LIN → (q ≥ 41 ↔ q' ≥ 41)) (xs : List (Ctxt (scheme (noise t) (drift t)).C)) :
    netResult t q p xs = netResult t q' p xs := by
  have h := agree' (scheme (noise t) (drift t)) q q'
  unfold netResult NeuralNetwork.eval
  rw [(sameBase_agree h rfl rfl rfl).evalLayers [[p]] fun l hl p' hp => ?_]
  · rfl
  · simp only [List.mem_singleton] at hl
    subst hl
    simp only [List.mem_singleton] at hp
    subst hp
    refine ⟨fun e => ?_, fun e => ?_⟩
    · have hl : p'.t ≠ .LIN := by rw [e]; decide
      unfold arithCt ascArith
      funext x y
      exact h.max_iff (h85 hl) (h41 hl) x y
    · have hl : p'.t ≠ .LIN := by rw [e]; decide
      unfold arithCt ascArith
      funext x
      exact h.relu_iff (h85 hl) (h41 hl) x

theorem settled_add (S : Scheme) (pc : Cloud) (x y : Ctxt S.C) : Settled ((arithCt S pc).add x y) :=
  ((schemeRel_eq S).ctAdd pc (CRel.refl x) (CRel.refl y)).left

theorem settled_addConst (S : Scheme) (pc : Cloud) (x : Ctxt S.C) (k : Int) : Settled ((arithCt S pc).addConst x k) :=
  ((schemeRel_eq S).ctAddConst pc (CRel.refl x) k).left

theorem settled_scalarMul (S : Scheme) (pc : Cloud) (x : Ctxt S.C) (k : Int) : Settled ((arithCt S pc).scalarMul k x) := by
  have := ((schemeRel_eq S).ctScalarMul pc (CRel.refl x) k).left
  unfold arithCt
  simp only
  exact this

theorem settled_max (S : Scheme) (pc : Cloud) (x y : Ctxt S.C) : Settled ((arithCt S pc).max x y) :=
  ((schemeRel_eq S).ctMax pc (CRel.refl x) (CRel.refl y)).left

theorem settled_relu (S : Scheme) (pc : Cloud) (x : Ctxt S.C) : Settled ((arithCt S pc).relu x) :=
  ((schemeRel_eq S).ctRelu pc (CRel.refl x)).left

theorem settled_affinePool (S : Scheme) (pc : Cloud) (w : List Int) (a : List (Ctxt S.C)) (b : Int) :
    Settled (affinePool (arithCt S pc) w a b) := by
  have loop : ∀ (w : List Int) (a : List (Ctxt S.C)) (r : Ctxt S.C), Settled (affineLoop (arithCt S pc) w a r) := by
    intro w
    induction w with
    | nil => intro a r; unfold affineLoop; exact Or.inl ⟨_, _, Returns.pure _⟩
    | cons k w ih =>
      intro a r
      cases a with
      | nil => unfold affineLoop; exact Or.inl ⟨_, _, Returns.pure _⟩
      | cons x a =>
        unfold affineLoop
        exact (settled_scalarMul S pc x k).bind fun s => (settled_add S pc r s).bind fun g => ih a g
  unfold affinePool
  exact (loop _ _ _).bind fun r => settled_addConst S pc r b

theorem settled_maxChunks (S : Scheme) (pc : Cloud) : ∀ a : List (Ctxt S.C), Settled (maxChunks (arithCt S pc) a)
  | [] => by unfold maxChunks; exact Or.inl ⟨_, _, Returns.pure _⟩
  | [_] => by unfold maxChunks; exact Or.inl ⟨_, _, Returns.pure _⟩
  | x :: y :: a => by
    unfold maxChunks
    exact (settled_max S pc x y).bind fun m => (settled_maxChunks S pc a).bind fun ms => Or.inl ⟨_, _, Returns.pure _⟩

theorem settled_maxPoolRecursion (S : Scheme) (pc : Cloud) : ∀ (fuel : Nat) (a : List (Ctxt S.C)),
    Settled (maxPoolRecursion (arithCt S pc) fuel a)
  | _, [] => by unfold maxPoolRecursion; exact Or.inl ⟨_, _, Returns.pure _⟩
  | _, [_] => by unfold maxPoolRecursion; exact Or.inl ⟨_, _, Returns.pure _⟩
  | 0, _ :: _ :: _ => by unfold maxPoolRecursion; exact Or.inr fun _ => ⟨_, rfl⟩
  | fuel + 1, x :: y :: a => by
    unfold maxPoolRecursion
    exact (settled_maxChunks S pc _).bind fun s => settled_maxPoolRecursion S pc fuel s

theorem settled_maxPool (S : Scheme) (pc : Cloud) (w : List Int) (a : List (Ctxt S.C)) (b : Int) :
    Settled (maxPool (arithCt S pc) w a b) := by
  have weights : ∀ (w : List Int) (a : List (Ctxt S.C)), Settled (applyWeights (arithCt S pc) w a) := by
    intro w
    induction w with
    | nil => intro a; unfold applyWeights; exact Or.inl ⟨_, _, Returns.pure _⟩
    | cons k w ih =>
      intro a
      cases a with
      | nil => unfold applyWeights; exact Or.inl ⟨_, _, Returns.pure _⟩
      | cons x a =>
        unfold applyWeights
        exact (settled_scalarMul S pc x k).bind fun s => (ih a).bind fun g => Or.inl ⟨_, _, Returns.pure _⟩
  unfold maxPool
  exact (weights _ _).bind fun wa => (settled_maxPoolRecursion S pc _ wa).bind fun r => settled_addConst S pc r b

theorem settled_perc (S : Scheme) (pc : Cloud) (p : Perceptron) (a : List (Ctxt S.C)) :
    Settled (evalPerc (arithCt S pc) p a) := by
  unfold evalPerc
  cases p.t with
  | MAX => exact settled_maxPool S pc _ _ _
  | LIN => exact settled_affinePool S pc _ _ _
  | ACT => exact (settled_affinePool S pc _ _ _).bind fun r => settled_relu S pc r

theorem settled_decrypts (t : Nat) (b : Build) : ∀ zs : List (Ctxt (scheme (noise t) (drift t)).C),
    Settled (zs.mapM (parmDecrypt (ck (noise t) (drift t)) b))
  | [] => Or.inl ⟨_, _, Returns.pure _⟩
  | z :: zs => by
    rw [List.mapM_cons]
    exact (settled_decrypt _ _ z).bind fun v => (settled_decrypts t b zs).bind fun vs => Or.inl ⟨_, _, Returns.pure _⟩

theorem settled_netResult (t q : Nat) (p : Perceptron) (xs : List (Ctxt (scheme (noise t) (drift t)).C)) :
    Settled (netResult t q p xs) := by
  unfold netResult NeuralNetwork.eval evalLayers evalLayer
  refine Settled.bind (Settled.bind (Settled.bind (settled_perc _ _ p xs) fun o => ?_) fun ol => ?_) fun zs =>
    settled_decrypts t _ zs
  · unfold evalLayer
    exact Or.inl ⟨_, _, (Returns.pure _).bind0 (Returns.pure _)⟩
  · unfold evalLayers
    exact Or.inl ⟨_, _, Returns.pure _⟩

/-- the witness from one run in the order of the source -/
theorem net_least {t q q' : Nat} {p : Perceptron} (h0 : 0 < t) (h15 : t ≤ 15) (ht : p.budget q = t)
    (hr : NetRange ⟨[[p]]⟩) (h85 : p.t ≠ .LIN → (q ≥ 85 ↔ q' ≥ 85)) (h41 : p.t ≠ .LIN → (q ≥ 41 ↔ q' ≥ 41))
    {xs : List (Ctxt (scheme (noise t) (drift t)).C)} {vs : List Int}
    (hx : List.Forall₂ (fun x v => Valid (ck (noise t) (drift t)) (noise t) x v) xs vs)
    (h : inOrder (netResult t q' p xs) ≠ some (netZ [[p]] vs)) :
    ∃ (S : Scheme) (ck : ClientKey S) (pc : Cloud) (B D : Nat) (xs : List (Ctxt S.C)) (vs : List Int),
    Budget S ck pc B D (p.budget q - 1) ∧ pc.params = { Params.M4C0 with quadWeight := q } ∧ Shipped pc ∧
    NetRange ⟨[[p]]⟩ ∧ List.Forall₂ (fun x v => Valid ck B x v) xs vs ∧
    Never (do let zs ← NeuralNetwork.eval (arithCt S pc) ⟨[[p]]⟩ xs; zs.mapM (parmDecrypt ck pc.build))
      (netZ [[p]] vs) := by
  refine ⟨_, _, _, _, _, xs, vs, by rw [ht]; exact budget t q h0 h15, rfl, ⟨rfl, rfl⟩, hr, hx, ?_⟩
  rw [← netResult_eq h85 h41] at h
  exact (settled_netResult t q p xs).never h

theorem validIn (t : Nat) (x : List Int) (hx : ∀ d ∈ x, IsDigit d) :
    Valid (ck (noise t) (drift t)) (noise t) (enc (noise t) (drift t) x) (value x) := by
  obtain ⟨h1, h2, _⟩ := drift_bounds t
  exact valid_enc _ _ h1 h2 x hx

end Tight

/-- **C85.** The budgets of the three kinds of perceptrons are exact, with every `quad_weight`: with one fresh noise less, and
all else as `C85_network` asks for, some conforming scheme gives in no execution the right output on some valid inputs. -/
theorem C85_network_least (q : Nat) (p : Perceptron)
    (hp : p ∈ [⟨.LIN, [1, 1], 0⟩, ⟨.ACT, [1], 0⟩, ⟨.MAX, [1, 1], 0⟩]) :
    ∃ (S : Scheme) (ck : ClientKey S) (pc : Cloud) (B D : Nat) (xs : List (Ctxt S.C)) (vs : List Int),
    Budget S ck pc B D (p.budget q - 1) ∧ pc.params = { Params.M4C0 with quadWeight := q } ∧ Shipped pc ∧
    NetRange ⟨[[p]]⟩ ∧ List.Forall₂ (fun x v => Valid ck B x v) xs vs ∧
    Never (do let zs ← NeuralNetwork.eval (arithCt S pc) ⟨[[p]]⟩ xs; zs.mapM (parmDecrypt ck pc.build))
      (netZ [[p]] vs) := by
  have digits : ∀ l ∈ [[-1, -1, -1], [-1, 0, 0], [0, 0, 0, 0], [0, -1, -1], [-1], [1], [-1, 0, 0, 0]],
      ∀ d ∈ l, IsDigit d := by unfold IsDigit; decide
  simp only [List.mem_cons, List.not_mem_nil, or_false] at hp
  rcases hp with rfl | rfl | rfl
  · exact Tight.net_least (t := 8) (q' := 40) (by norm_num) (by norm_num) rfl (by unfold NetRange; decide) (by simp) (by simp)
      (.cons (Tight.validIn 8 [-1, -1, -1] (digits _ (by simp))) (.cons (Tight.validIn 8 [-1, 0, 0] (digits _ (by simp))) .nil))
      (by decide +kernel)
  · have hv : ∀ t, Valid (Tight.ck (Tight.noise t) (Tight.drift t)) (Tight.noise t)
        (ctOpp _ (Tight.enc (Tight.noise t) (Tight.drift t) [-1, 0, 0, 0])) (- value [-1, 0, 0, 0]) := fun t =>
      Tight.valid_opp (Tight.validIn t [-1, 0, 0, 0] (digits _ (by simp)))
    by_cases h : 85 ≤ q
    · exact Tight.net_least (t := 15) (q' := 100) (by norm_num) (by norm_num) (if_pos h) (by unfold NetRange; decide)
        (by omega) (by omega) (.cons (hv 15) .nil) (by decide +kernel)
    · by_cases h' : 41 ≤ q
      · exact Tight.net_least (t := 8) (q' := 84) (by norm_num) (by norm_num) (if_neg h) (by unfold NetRange; decide)
          (by omega) (by omega) (.cons (hv 8) .nil) (by decide +kernel)
      · exact Tight.net_least (t := 8) (q' := 40) (by norm_num) (by norm_num) (if_neg h) (by unfold NetRange; decide)
          (by omega) (by omega) (.cons (hv 8) .nil) (by decide +kernel)
  · by_cases h : 85 ≤ q
    · exact Tight.net_least (t := 15) (q' := 100) (by norm_num) (by norm_num) (if_pos h) (by unfold NetRange; decide)
        (by omega) (by omega) (.cons (Tight.validIn 15 [-1, 0, 0, 0] (digits _ (by simp)))
          (.cons (Tight.validIn 15 [0, 0, 0, 0] (digits _ (by simp))) .nil)) (by decide +kernel)
    · by_cases h' : 41 ≤ q
      · exact Tight.net_least (t := 9) (q' := 84) (by norm_num) (by norm_num) ((if_neg h).trans (if_pos h'))
          (by unfold NetRange; decide) (by omega) (by omega) (.cons (Tight.validIn 9 [-1] (digits _ (by simp)))
          (.cons (Tight.validIn 9 [1] (digits _ (by simp))) .nil)) (by decide +kernel)
      · exact Tight.net_least (t := 8) (q' := 40) (by norm_num) (by norm_num) ((if_neg h).trans (if_neg h'))
          (by unfold NetRange; decide) (by omega) (by omega) (.cons (Tight.validIn 8 [-1, -1, -1] (digits _ (by simp)))
          (.cons (Tight.validIn 8 [0, -1, -1] (digits _ (by simp))) .nil)) (by decide +kernel)

/-- Case: `quad_weight` 100 and noise that is too high for the sign; two layers of linear perceptrons are still right. -/
example : ¬ Setting (Tight.scheme (Tight.noise 9) (Tight.drift 9)) (Tight.ck (Tight.noise 9) (Tight.drift 9))
      (Tight.shipped 100) (Tight.noise 9) (Tight.drift 9) ∧
    Yields (NeuralNetwork.eval (arithCt (Tight.scheme (Tight.noise 9) (Tight.drift 9)) (Tight.shipped 100))
        ⟨[[⟨.LIN, [3, -2], 5⟩, ⟨.LIN, [0, 1], -1⟩], [⟨.LIN, [100, 7], 0⟩]]⟩
        [Tight.enc (Tight.noise 9) (Tight.drift 9) [1, 1, 1], Tight.enc (Tight.noise 9) (Tight.drift 9) [-1, 0, -1]])
      (fun zs => List.Forall₂ (fun z v => Valid (Tight.ck (Tight.noise 9) (Tight.drift 9)) (Tight.noise 9) z v) zs [3558]) := by
  refine ⟨fun st => absurd st.tolerance (by decide), ?_⟩
  exact (C85_network (le_refl 8) (Tight.budget 9 100 (by norm_num) (by norm_num)) ⟨rfl, rfl⟩ .release
    (by unfold NetRange; decide) (by decide)
    (.cons (Tight.validIn 9 [1, 1, 1] (by unfold IsDigit; decide)) (.cons (Tight.validIn 9 [-1, 0, -1] (by unfold IsDigit; decide))
      .nil))).mono fun zs h => h.imp fun _ _ h => h.1

/-- Case: a maximum with the shipped `quad_weight` 100 does need fifteen times the fresh noise. -/
example : ∃ (S : Scheme) (ck : ClientKey S) (pc : Cloud) (B D : Nat) (xs : List (Ctxt S.C)) (vs : List Int),
    Budget S ck pc B D 14 ∧ pc.params = Params.M4C0 ∧ List.Forall₂ (fun x v => Valid ck B x v) xs vs ∧
    Never (do let zs ← NeuralNetwork.eval (arithCt S pc) ⟨[[⟨.MAX, [1, 1], 0⟩]]⟩ xs; zs.mapM (parmDecrypt ck pc.build))
      (netZ [[⟨.MAX, [1, 1], 0⟩]] vs) := by
  obtain ⟨S, ck, pc, B, D, xs, vs, h1, h2, _, _, h3, h4⟩ := C85_network_least 100 ⟨.MAX, [1, 1], 0⟩ (by simp)
  exact ⟨S, ck, pc, B, D, xs, vs, h1, h2, h3, h4⟩

end Parm
