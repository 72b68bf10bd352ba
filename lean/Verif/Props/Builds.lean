import Verif.Props.Schedule

/-!
# Debug and release builds: property C50
-/

namespace Parm

/-- The debug build of a computation: it panics by arithmetic overflow, or has the same outcome
as the release build (the same value after the same number of bootstraps, under every schedule,
or a failure). -/
def DebugOf {α : Type} (m m' : M α) : Prop :=
  Fails m (.panic .overflow) ∨ SameOutcome (· = ·) m m'

theorem Settled.sameOutcome {α : Type} {m : M α} (h : Settled m) : SameOutcome (· = ·) m m := by
  rcases h with ⟨a, n, h⟩ | h
  · exact Or.inl ⟨a, a, n, h, h, rfl⟩
  · exact Or.inr ⟨h, h⟩

theorem SameOutcome.call {α β : Type} {Q : α → β → Prop} {m : M α} {m' : M β} (h : SameOutcome Q m m') :
    SameOutcome Q m.call m'.call := by
  rcases h with ⟨a, a', n, h1, h2, e⟩ | ⟨h1, h2⟩
  · exact Or.inl ⟨a, a', n, h1.call, h2.call, e⟩
  · exact Or.inr ⟨h1.call, h2.call⟩

theorem SameOutcome.expect {α β : Type} {Q : α → β → Prop} {m : M α} {m' : M β} (h : SameOutcome Q m m') :
    SameOutcome Q m.expect m'.expect := by
  rcases h with ⟨a, a', n, h1, h2, e⟩ | ⟨h1, h2⟩
  · exact Or.inl ⟨a, a', n, h1.expect, h2.expect, e⟩
  · exact Or.inr ⟨h1.expect, h2.expect⟩

theorem DebugOf.same {α : Type} {m : M α} (h : Settled m) : DebugOf m m := Or.inr h.sameOutcome

theorem DebugOf.pure {α : Type} (a : α) : DebugOf (Pure.pure a : M α) (Pure.pure a) :=
  DebugOf.same (Or.inl ⟨a, 0, Returns.pure a⟩)

theorem DebugOf.bind {α β : Type} {m m' : M α} {f f' : α → M β} (h : DebugOf m m')
    (hf : ∀ a, DebugOf (f a) (f' a)) : DebugOf (m >>= f) (m' >>= f') := by
  rcases h with h | ⟨a, a', n, h1, h2, rfl⟩ | ⟨h1, h2⟩
  · exact Or.inl h.bind
  · rcases hf a with g | ⟨b, b', k, g1, g2, rfl⟩ | ⟨g1, g2⟩
    · exact Or.inl (h1.bind_fails g)
    · exact Or.inr (Or.inl ⟨b, b, n + k, h1.bind g1, h2.bind g2, rfl⟩)
    · exact Or.inr (Or.inr ⟨h1.bind_allFail g1, h2.bind_allFail g2⟩)
  · exact Or.inr (Or.inr ⟨h1.bind, h2.bind⟩)

theorem DebugOf.call {α : Type} {m m' : M α} (h : DebugOf m m') : DebugOf m.call m'.call := by
  rcases h with h | ⟨a, a', n, h1, h2, e⟩ | ⟨h1, h2⟩
  · exact Or.inl h.call_panic
  · exact Or.inr (Or.inl ⟨a, a', n, h1.call, h2.call, e⟩)
  · exact Or.inr (Or.inr ⟨h1.call, h2.call⟩)

theorem DebugOf.expect {α : Type} {m m' : M α} (h : DebugOf m m') : DebugOf m.expect m'.expect := by
  rcases h with h | ⟨a, a', n, h1, h2, e⟩ | ⟨h1, h2⟩
  · exact Or.inl h.expect_panic
  · exact Or.inr (Or.inl ⟨a, a', n, h1.expect, h2.expect, e⟩)
  · exact Or.inr (Or.inr ⟨h1.expect, h2.expect⟩)

theorem DebugOf.ite {α : Type} {c : Prop} [Decidable c] {m1 m2 m1' m2' : M α} (h1 : c → DebugOf m1 m1')
    (h2 : ¬ c → DebugOf m2 m2') : DebugOf (if c then m1 else m2) (if c then m1' else m2') := by
  split
  · exact h1 ‹_›
  · exact h2 ‹_›

/-- the cloud data with a given build profile -/
abbrev Cloud.withBuild (pc : Cloud) (b : Build) : Cloud := { pc with build := b }

section
variable (S : Scheme) (pc : Cloud)

theorem withBuild_agree (b b' : Build) : CloudAgree S (pc.withBuild b) (pc.withBuild b') where
  msgMod := rfl
  lut _ _ := rfl

/-- **C50.** Every operation except `add_const` and `scalar_mul` is the same function in both
builds — results, bootstraps, and failures alike — on arbitrary ciphertexts. -/
theorem C50_unchecked (b b' : Build) :
    (arithCt S (pc.withBuild b)).opp = (arithCt S (pc.withBuild b')).opp ∧
    (arithCt S (pc.withBuild b)).shift = (arithCt S (pc.withBuild b')).shift ∧
    (arithCt S (pc.withBuild b)).add = (arithCt S (pc.withBuild b')).add ∧
    (arithCt S (pc.withBuild b)).sub = (arithCt S (pc.withBuild b')).sub ∧
    (arithCt S (pc.withBuild b)).addNoisy = (arithCt S (pc.withBuild b')).addNoisy ∧
    (arithCt S (pc.withBuild b)).subNoisy = (arithCt S (pc.withBuild b')).subNoisy ∧
    (arithCt S (pc.withBuild b)).sgn = (arithCt S (pc.withBuild b')).sgn ∧
    (arithCt S (pc.withBuild b)).max = (arithCt S (pc.withBuild b')).max ∧
    (arithCt S (pc.withBuild b)).relu = (arithCt S (pc.withBuild b')).relu ∧
    (arithCt S (pc.withBuild b)).mul = (arithCt S (pc.withBuild b')).mul ∧
    (arithCt S (pc.withBuild b)).squ = (arithCt S (pc.withBuild b')).squ ∧
    (arithCt S (pc.withBuild b)).roundAt = (arithCt S (pc.withBuild b')).roundAt := by
  have H := withBuild_agree S pc b b'
  unfold arithCt ascArith
  dsimp only
  refine ⟨rfl, ?_, ?_, ?_, ?_, ?_, ?_, ?_, ?_, ?_, ?_, ?_⟩
  · funext x k; rw [H.shift]
  · funext x y; exact H.add x y
  · funext x y; exact H.sub x y
  · funext x y; exact H.addNoisy x y
  · funext x y; exact H.subNoisy x y
  · funext x; exact H.sgn rfl x
  · funext x y; exact H.max rfl x y
  · funext x; exact H.relu rfl x
  · funext x y; exact H.mul x y
  · funext x; exact H.squ x
  · funext x p; exact H.roundAt rfl x p

/-- **C50**, `add_const`: the same function in both builds for every constant but `i64::MIN`. -/
theorem C50_add_const {k : Int} (h1 : -2 ^ 63 < k) (h2 : k < 2 ^ 63) (b b' : Build) (x : Ctxt S.C) :
    ctAddConst S (pc.withBuild b) x k = ctAddConst S (pc.withBuild b') x k := by
  have H := withBuild_agree S pc b b'
  have e : ∀ b, i64Op b (k.natAbs : Int) = pure (k.natAbs : Int) := by
    intro b
    unfold i64Op
    rw [if_pos (inI64_iff.2 ⟨by omega, by omega⟩)]
  unfold ctAddConst addConstImpl
  simp only [e, pure_bind, H.add]
  rfl

/-- the fixed width of `i32` operations -/
theorem DebugOf.i32Op (x : Int) : DebugOf (i32Op .debug x) (i32Op .release x) := by
  unfold Parm.i32Op
  split_ifs
  · exact DebugOf.pure _
  · exact Or.inl (Fails.panic _)

theorem DebugOf.i64Op (x : Int) : DebugOf (i64Op .debug x) (i64Op .release x) := by
  unfold Parm.i64Op
  split_ifs
  · exact DebugOf.pure _
  · exact Or.inl (Fails.panic _)

theorem scalarRest_agree (b b' : Build) (x : Ctxt S.C) (ws : List (Int × Nat)) :
    scalarRest S (pc.withBuild b) x ws = scalarRest S (pc.withBuild b') x ws := by
  have H := withBuild_agree S pc b b'
  unfold scalarRest
  simp only [H.ascEval, H.shift, H.reduceMulsquary]

/-- **C50** (partial: the property as wished, "no operation panics by overflow in a debug build",
is false, see `C50_scalar_mul_91` and `C50_min`), `scalar_mul`: for every scalar and every
ciphertext the debug build panics by overflow or has the same outcome as the release build. -/
theorem C50_scalar_mul_partial (k : Int) (x : Ctxt S.C) :
    DebugOf (ctScalarMul S (pc.withBuild .debug) k x) (ctScalarMul S (pc.withBuild .release) k x) := by
  unfold ctScalarMul
  refine DebugOf.call ?_
  rw [scalarMulImpl_eq, scalarMulImpl_eq]
  by_cases hin : inI32 (k.natAbs : Int) = true
  · have e : ∀ b, i32Op b (k.natAbs : Int) = pure (k.natAbs : Int) := by
      intro b
      unfold Parm.i32Op
      rw [if_pos hin]
    simp only [e, pure_bind]
    refine DebugOf.ite (fun _ => DebugOf.pure _) fun h0 => DebugOf.ite (fun _ => DebugOf.pure _) fun _ => ?_
    refine DebugOf.bind ?_ fun ws => ?_
    · have hlt : (wrapU32 (k.natAbs : Int)).toNat < 2 ^ 32 := by
        unfold wrapU32
        omega
      rcases windShifts_debug h0 hlt (bitlen := ascBitlen) (by decide) (by decide) with ⟨ws, h1, h2⟩ | h
      · exact Or.inr (Or.inl ⟨ws, ws, 0, h1, h2, rfl⟩)
      · exact Or.inl h
    · rw [scalarRest_agree S pc .debug .release]
      exact DebugOf.same ((schemeRel_eq S).scalarRest _ (CRel.refl _) ws).left
  · refine Or.inl (Fails.bind ?_)
    show Fails (Parm.i32Op .debug _) _
    unfold Parm.i32Op
    rw [if_neg hin]
    exact Fails.panic _

/-- **C50** (partial, as `C50_scalar_mul_partial`), `add_const`. -/
theorem C50_add_const_partial (k : Int) (x : Ctxt S.C) :
    DebugOf (ctAddConst S (pc.withBuild .debug) x k) (ctAddConst S (pc.withBuild .release) x k) := by
  by_cases hin : k = 0 ∨ inI64 (k.natAbs : Int) = true
  · have : ctAddConst S (pc.withBuild .debug) x k = ctAddConst S (pc.withBuild .release) x k := by
      have H := withBuild_agree S pc .debug .release
      unfold ctAddConst addConstImpl
      rcases hin with rfl | hin
      · rw [if_pos rfl, if_pos rfl]
      · have e : ∀ b, Parm.i64Op b (k.natAbs : Int) = pure (k.natAbs : Int) := by
          intro b
          unfold Parm.i64Op
          rw [if_pos hin]
        simp only [e, pure_bind, H.add]
        rfl
    rw [this]
    exact DebugOf.same ((schemeRel_eq S).ctAddConst _ (CRel.refl x) k).left
  · refine Or.inl ?_
    rw [not_or] at hin
    unfold ctAddConst addConstImpl
    apply Fails.call_panic
    rw [if_neg hin.1]
    apply Fails.bind
    show Fails (Parm.i64Op .debug _) _
    unfold Parm.i64Op
    rw [if_neg hin.2]
    exact Fails.panic _

end

theorem DebugOf.mapM {α β : Type} {f f' : α → M β} (l : List α) (h : ∀ a, DebugOf (f a) (f' a)) :
    DebugOf (l.mapM f) (l.mapM f') := by
  induction l with
  | nil => exact DebugOf.pure _
  | cons a l ih =>
    rw [List.mapM_cons, List.mapM_cons]
    exact (h a).bind fun b => ih.bind fun bs => DebugOf.pure _

theorem settled_encryptFromVec {S : Scheme} (ck : ClientKey S) (msgMod : Nat) (seed : Nat → Nat) :
    ∀ (i : Nat) (v : List Int), Settled (parmEncryptFromVec ck msgMod seed i v)
  | _, [] => Or.inl ⟨_, 0, Returns.pure _⟩
  | i, d :: v => by
    unfold parmEncryptFromVec
    split_ifs
    · exact Or.inr (Fails.err _).allFail
    · rcases settled_encryptFromVec ck msgMod seed (i + 1) v with ⟨a, n, h⟩ | h
      · exact Or.inl ⟨_, _, h.bind (Returns.pure _)⟩
      · exact Or.inr h.bind

/-! ### Programs and networks -/

/-- `A` is a debug build of the interface, `A'` its release build -/
structure ArithDebug {T : Type} (A A' : Arith T) : Prop where
  zero : A.zero = A'.zero
  opp : ∀ x, DebugOf (A.opp x) (A'.opp x)
  shift : ∀ x k, DebugOf (A.shift x k) (A'.shift x k)
  add : ∀ x y, DebugOf (A.add x y) (A'.add x y)
  sub : ∀ x y, DebugOf (A.sub x y) (A'.sub x y)
  addNoisy : ∀ x y, DebugOf (A.addNoisy x y) (A'.addNoisy x y)
  subNoisy : ∀ x y, DebugOf (A.subNoisy x y) (A'.subNoisy x y)
  addConst : ∀ x k, DebugOf (A.addConst x k) (A'.addConst x k)
  scalarMul : ∀ k x, DebugOf (A.scalarMul k x) (A'.scalarMul k x)
  sgn : ∀ x, DebugOf (A.sgn x) (A'.sgn x)
  max : ∀ x y, DebugOf (A.max x y) (A'.max x y)
  relu : ∀ x, DebugOf (A.relu x) (A'.relu x)
  mul : ∀ x y, DebugOf (A.mul x y) (A'.mul x y)
  squ : ∀ x, DebugOf (A.squ x) (A'.squ x)
  roundAt : ∀ x p, DebugOf (A.roundAt x p) (A'.roundAt x p)

theorem DebugOf.idx {α : Type} (l : List α) (i : Nat) : DebugOf (idx l i) (idx l i) := by
  refine DebugOf.same ?_
  by_cases h : i < l.length
  · exact Or.inl ⟨_, 0, Returns.idx h⟩
  · refine Or.inr ?_
    unfold Parm.idx
    rw [List.getElem?_eq_none (by omega)]
    exact (Fails.panic _).allFail

section
variable {T : Type} {A A' : Arith T} (H : ArithDebug A A')
include H

theorem ArithDebug.instr (r : List T) (ins : Instr) : DebugOf (ins.run A r) (ins.run A' r) := by
  cases ins with
  | zero => unfold Instr.run; rw [H.zero]; exact DebugOf.pure _
  | opp i => exact (DebugOf.idx r i).bind fun x => H.opp x
  | shift i k => exact (DebugOf.idx r i).bind fun x => H.shift x k
  | add i j => exact (DebugOf.idx r i).bind fun x => (DebugOf.idx r j).bind fun y => H.add x y
  | sub i j => exact (DebugOf.idx r i).bind fun x => (DebugOf.idx r j).bind fun y => H.sub x y
  | addConst i k => exact (DebugOf.idx r i).bind fun x => H.addConst x k
  | scalarMul k i => exact (DebugOf.idx r i).bind fun x => H.scalarMul k x
  | sgn i => exact (DebugOf.idx r i).bind fun x => H.sgn x
  | max i j => exact (DebugOf.idx r i).bind fun x => (DebugOf.idx r j).bind fun y => H.max x y
  | relu i => exact (DebugOf.idx r i).bind fun x => H.relu x
  | mul i j => exact (DebugOf.idx r i).bind fun x => (DebugOf.idx r j).bind fun y => H.mul x y
  | squ i => exact (DebugOf.idx r i).bind fun x => H.squ x
  | roundAt i p => exact (DebugOf.idx r i).bind fun x => H.roundAt x p

theorem ArithDebug.prog : ∀ (p : List Instr) (r : List T), DebugOf (runProg A p r) (runProg A' p r)
  | [], r => DebugOf.pure r
  | i :: is, r => by
    unfold runProg
    exact (H.instr r i).bind fun z => ArithDebug.prog is _

theorem ArithDebug.affineLoop : ∀ (w : List Int) (a : List T) (r : T),
    DebugOf (affineLoop A w a r) (affineLoop A' w a r)
  | [], _, r => DebugOf.pure r
  | _ :: _, [], r => DebugOf.pure r
  | k :: w, x :: a, r => by
    unfold Parm.affineLoop
    exact (H.scalarMul k x).bind fun s => (H.add r s).bind fun g => ArithDebug.affineLoop w a g

theorem ArithDebug.affinePool (w : List Int) (b : Int) (a : List T) :
    DebugOf (affinePool A w a b) (affinePool A' w a b) := by
  unfold Parm.affinePool
  rw [H.zero]
  exact (H.affineLoop w a _).bind fun r => H.addConst r b

theorem ArithDebug.applyWeights : ∀ (w : List Int) (a : List T),
    DebugOf (applyWeights A w a) (applyWeights A' w a)
  | [], _ => DebugOf.pure []
  | _ :: _, [] => DebugOf.pure []
  | k :: w, x :: a => by
    unfold Parm.applyWeights
    exact (H.scalarMul k x).bind fun s => (ArithDebug.applyWeights w a).bind fun g => DebugOf.pure _

theorem ArithDebug.maxChunks : ∀ (n : Nat) (a : List T), a.length ≤ n →
    DebugOf (maxChunks A a) (maxChunks A' a)
  | _, [], _ => by unfold Parm.maxChunks; exact DebugOf.pure _
  | _, [x], _ => by unfold Parm.maxChunks; exact DebugOf.pure _
  | 0, _ :: _ :: _, hn => by simp at hn
  | n + 1, x :: y :: a, hn => by
    unfold Parm.maxChunks
    exact (H.max x y).bind fun m => (ArithDebug.maxChunks n a (by simp at hn; omega)).bind fun t => DebugOf.pure _

theorem ArithDebug.maxPoolRecursion : ∀ (fuel : Nat) (a : List T),
    DebugOf (maxPoolRecursion A fuel a) (maxPoolRecursion A' fuel a)
  | _, [] => by unfold Parm.maxPoolRecursion; rw [H.zero]; exact DebugOf.pure _
  | _, [x] => by unfold Parm.maxPoolRecursion; exact DebugOf.pure _
  | 0, _ :: _ :: _ => by
    unfold Parm.maxPoolRecursion; exact DebugOf.same (Or.inr (Fails.panic _).allFail)
  | fuel + 1, x :: y :: a => by
    unfold Parm.maxPoolRecursion
    exact (H.maxChunks _ _ (Nat.le_refl _)).bind fun t => ArithDebug.maxPoolRecursion fuel t

theorem ArithDebug.evalPerc (p : Perceptron) (a : List T) : DebugOf (evalPerc A p a) (evalPerc A' p a) := by
  unfold Parm.evalPerc
  cases p.t with
  | MAX =>
    dsimp only
    unfold Parm.maxPool
    exact (H.applyWeights p.w a).bind fun w => (H.maxPoolRecursion _ w).bind fun r => H.addConst r _
  | LIN => exact H.affinePool _ _ a
  | ACT => exact (H.affinePool _ _ a).bind fun r => H.relu r

theorem ArithDebug.evalLayer : ∀ (ps : List Perceptron) (a : List T),
    DebugOf (evalLayer A ps a) (evalLayer A' ps a)
  | [], _ => DebugOf.pure []
  | p :: ps, a => by
    unfold Parm.evalLayer
    exact (H.evalPerc p a).bind fun o => (ArithDebug.evalLayer ps a).bind fun os => DebugOf.pure _

theorem ArithDebug.evalLayers : ∀ (ls : List (List Perceptron)) (i o : List T),
    DebugOf (evalLayers A ls i o) (evalLayers A' ls i o)
  | [], _, o => DebugOf.pure o
  | l :: ls, i, _ => by
    unfold Parm.evalLayers
    exact (H.evalLayer l i).bind fun o => ArithDebug.evalLayers ls o o

theorem ArithDebug.nn (n : NeuralNetwork) (a : List T) : DebugOf (n.eval A a) (n.eval A' a) := H.evalLayers _ _ _

end

section
variable (S : Scheme) (pc : Cloud)

theorem arithCt_debug : ArithDebug (arithCt S (pc.withBuild .debug)) (arithCt S (pc.withBuild .release)) := by
  obtain ⟨h1, h2, h3, h4, h5, h6, h7, h8, h9, h10, h11, h12⟩ := C50_unchecked S pc .debug .release
  have G := (schemeRel_eq S).arithCt (pc.withBuild .release)
  have r := @CRel.refl S.C
  exact {
    zero := rfl
    opp := fun x => by rw [h1]; exact DebugOf.same (G.opp (r x)).left
    shift := fun x k => by rw [h2]; exact DebugOf.same (G.shift k (r x)).left
    add := fun x y => by rw [h3]; exact DebugOf.same (G.add (r x) (r y)).left
    sub := fun x y => by rw [h4]; exact DebugOf.same (G.sub (r x) (r y)).left
    addNoisy := fun x y => by rw [h5]; exact DebugOf.same (G.addNoisy (r x) (r y)).left
    subNoisy := fun x y => by rw [h6]; exact DebugOf.same (G.subNoisy (r x) (r y)).left
    addConst := fun x k => C50_add_const_partial S pc k x
    scalarMul := fun k x => by
      rw [arithCt_scalarMul, arithCt_scalarMul]
      exact C50_scalar_mul_partial S pc k x
    sgn := fun x => by rw [h7]; exact DebugOf.same (G.sgn (r x)).left
    max := fun x y => by rw [h8]; exact DebugOf.same (G.max (r x) (r y)).left
    relu := fun x => by rw [h9]; exact DebugOf.same (G.relu (r x)).left
    mul := fun x y => by rw [h10]; exact DebugOf.same (G.mul (r x) (r y)).left
    squ := fun x => by rw [h11]; exact DebugOf.same (G.squ (r x)).left
    roundAt := fun x p => by rw [h12]; exact DebugOf.same (G.roundAt p (r x)).left }

/-- **C50** (partial, as `C50_scalar_mul_partial`).  Any program and any network, on arbitrary
ciphertexts: if the debug build does not panic by overflow, it has the outcome of the release
build. -/
theorem C50_program_partial (p : List Instr) (xs : List (Ctxt S.C)) :
    DebugOf (runProg (arithCt S (pc.withBuild .debug)) p xs) (runProg (arithCt S (pc.withBuild .release)) p xs) :=
  (arithCt_debug S pc).prog p xs

theorem C50_network_partial (n : NeuralNetwork) (xs : List (Ctxt S.C)) :
    DebugOf (n.eval (arithCt S (pc.withBuild .debug)) xs) (n.eval (arithCt S (pc.withBuild .release)) xs) :=
  (arithCt_debug S pc).nn n xs

/-- **C50**, decryption has the same outcome in both builds, on arbitrary ciphertexts. -/
theorem C50_decrypt (ck : ClientKey S) (b b' : Build) (x : Ctxt S.C) :
    SameOutcome (· = ·) (parmDecrypt ck b x) (parmDecrypt ck b' x) := by
  obtain ⟨ds, hl, hd, h1, h2, h3⟩ := C03_decrypt_total (ck := ck) b x
  obtain ⟨ds', hl', hd', h1', h2', h3'⟩ := C03_decrypt_total (ck := ck) b' x
  have e : ds' = ds := by
    refine List.ext_getElem (by omega) fun i hi hi' => ?_
    exact ((hd' i (by omega) hi).unique (hd i (by omega) hi')).1
  subst e
  by_cases hx : x.length ≤ 63
  · by_cases hd : ∀ d ∈ ds', IsDigit d
    · exact Or.inl ⟨_, _, 0, (h1 hx hd).1, (h1' hx hd).1, rfl⟩
    · exact Or.inr ⟨(h3 hx hd).allFail, (h3' hx hd).allFail⟩
  · exact Or.inr ⟨(h2 (by omega)).allFail, (h2' (by omega)).allFail⟩

/-- **C50** (partial, as `C50_scalar_mul_partial`), encryption: any value, any number of words. -/
theorem C50_encrypt_partial (ck : ClientKey S) (seed : Nat → Nat) (m : Int) (w : Nat) :
    DebugOf (parmEncrypt ck pc.msgMod .debug seed m w) (parmEncrypt ck pc.msgMod .release seed m w) := by
  unfold parmEncrypt convertToVec
  refine DebugOf.bind ((DebugOf.i64Op _).bind fun a => DebugOf.mapM _ fun i => ?_) fun v =>
    DebugOf.same (settled_encryptFromVec ck _ seed 0 v)
  refine DebugOf.bind ?_ fun sh => DebugOf.pure _
  unfold shAmt64
  split_ifs
  · exact DebugOf.pure _
  · exact Or.inl (Fails.panic _)

/-- … in a debug build more than 64 words always panic. -/
theorem C50_encrypt_long (ck : ClientKey S) (seed : Nat → Nat) (m : Int) {w : Nat} (hw : 64 < w) :
    Fails (parmEncrypt ck pc.msgMod .debug seed m w) (.panic .overflow) := by
  unfold parmEncrypt convertToVec
  apply Fails.bind
  by_cases hin : inI64 (m.natAbs : Int) = true
  · unfold i64Op
    rw [if_pos hin, pure_bind]
    have e : List.range w = List.range 64 ++ (64 :: (List.range (w - 65)).map (65 + ·)) := by
      have : w = 64 + (1 + (w - 65)) := by omega
      conv_lhs => rw [this, List.range_add, List.range_add]
      simp [Function.comp_def]
      intro a _
      omega
    rw [e, List.mapM_append]
    refine Returns.bind_fails (Returns.mapM (fun i => if ((BitVec.ofInt 64 (m.natAbs : Int)).sshiftRight i) &&& 1#64 = 0
      then (0 : Int) else if decide (m ≥ 0) then 1 else -1) _ fun i hi => ?_) ?_
    · unfold shAmt64
      rw [if_pos (by simpa using hi), pure_bind]
      exact Returns.pure _
    · apply Fails.bind
      rw [List.mapM_cons]
      apply Fails.bind
      apply Fails.bind
      exact Fails.panic _
  · apply Fails.bind
    unfold i64Op
    rw [if_neg hin]
    exact Fails.panic _

/-- The negation of the property as stated: multiplying by 91 panics in a debug build, whatever
the ciphertext. -/
theorem C50_scalar_mul_91 (x : Ctxt S.C) :
    Fails (ctScalarMul S (pc.withBuild .debug) 91 x) (.panic .overflow) := fun _ => rfl

/-- … and so does `i32::MIN`. -/
theorem C50_scalar_mul_min (x : Ctxt S.C) :
    Fails (ctScalarMul S (pc.withBuild .debug) (-2 ^ 31) x) (.panic .overflow) := fun _ => rfl

/-- **C50**, exactly which scalars: whether the debug build panics only depends on whether the recoding of `|k|` into
windows does, not on the ciphertext; if it does not, the two builds agree. -/
theorem C50_scalar_mul_windows {k : Int} (hk : k.natAbs < 2 ^ 31) (h1 : 1 < k.natAbs) (x : Ctxt S.C) :
    if ((windShifts .debug k.natAbs ascBitlen) (St.init Sched.seq)).toOption.isSome then
      SameOutcome (· = ·) (ctScalarMul S (pc.withBuild .debug) k x) (ctScalarMul S (pc.withBuild .release) k x)
    else Fails (ctScalarMul S (pc.withBuild .debug) k x) (.panic .overflow) := by
  have e : ∀ b, i32Op b (k.natAbs : Int) = pure (k.natAbs : Int) := by
    intro b
    unfold Parm.i32Op
    rw [if_pos]
    unfold inI32
    simp only [Bool.and_eq_true, decide_eq_true_eq]
    omega
  have hw : (wrapU32 (k.natAbs : Int)).toNat = k.natAbs := by
    unfold wrapU32
    omega
  have key : ∀ b, scalarMulImpl S (pc.withBuild b) k x = (windShifts b k.natAbs ascBitlen >>= fun ws =>
      scalarRest S (pc.withBuild b) (if k ≥ 0 then x else x.map (Word.opp S)) ws) := by
    intro b
    rw [scalarMulImpl_eq]
    simp only [e, pure_bind, hw]
    rw [if_neg (by omega), if_neg (by omega)]
  unfold ctScalarMul
  rcases windShifts_debug (k := k.natAbs) (by omega) (by omega) (bitlen := ascBitlen) (by decide) (by decide) with ⟨ws, h1, h2⟩ | h
  · have hs : ((windShifts .debug k.natAbs ascBitlen) (St.init Sched.seq)).toOption.isSome = true := by
      obtain ⟨r, l, _, hr⟩ := h1 (St.init Sched.seq)
      rw [hr]
      rfl
    rw [if_pos hs]
    refine SameOutcome.call ?_
    rw [key, key]
    simp only [scalarRest_agree S pc .debug .release]
    rcases ((schemeRel_eq S).scalarRest (pc.withBuild .release) (CRel.refl _) ws).left with ⟨a, n, g⟩ | g
    · exact Or.inl ⟨a, a, 0 + n, h1.bind g, h2.bind g, rfl⟩
    · exact Or.inr ⟨h1.bind_allFail g, h2.bind_allFail g⟩
  · have hs : ¬ ((windShifts .debug k.natAbs ascBitlen) (St.init Sched.seq)).toOption.isSome = true := by
      rw [h]
      simp [Except.toOption]
    rw [if_neg hs, key]
    exact (Fails.bind h).call_panic

/-- **C50**: 91 is the least such scalar; up to 90 the two builds agree, on arbitrary
ciphertexts. -/
theorem C50_scalar_mul_small {k : Int} (hk : k.natAbs ≤ 90) (x : Ctxt S.C) :
    SameOutcome (· = ·) (ctScalarMul S (pc.withBuild .debug) k x) (ctScalarMul S (pc.withBuild .release) k x) := by
  by_cases h1 : 1 < k.natAbs
  · have hall : ∀ n, n < 91 → ((windShifts .debug n ascBitlen) (St.init Sched.seq)).toOption.isSome = true := by
      decide +kernel
    have := C50_scalar_mul_windows S pc (k := k) (by omega) h1 x
    rwa [if_pos (hall _ (by omega))] at this
  · unfold ctScalarMul
    refine SameOutcome.call ?_
    rw [scalarMulImpl_eq, scalarMulImpl_eq]
    have e : ∀ b, i32Op b (k.natAbs : Int) = pure (k.natAbs : Int) := by
      intro b
      unfold Parm.i32Op
      rw [if_pos]
      unfold inI32
      simp only [Bool.and_eq_true, decide_eq_true_eq]
      omega
    simp only [e, pure_bind]
    have hw : (wrapU32 (k.natAbs : Int)).toNat = k.natAbs := by
      unfold wrapU32
      omega
    rw [hw]
    by_cases h0 : k.natAbs = 0
    · rw [if_pos h0, if_pos h0]
      exact Settled.sameOutcome (Or.inl ⟨_, 0, Returns.pure _⟩)
    have h1 : k.natAbs = 1 := by omega
    rw [if_neg h0, if_neg h0, if_pos h1, if_pos h1]
    exact Settled.sameOutcome (Or.inl ⟨_, 0, Returns.pure _⟩)

end

/-- Case: the release build computes `91 * 5`, the debug build panics. -/
example : Yields (ctScalarMul Demo.scheme (Demo.cloud12.withBuild .release) 91 (Demo.encVec [1, 0, 1]))
      (fun z => Valid Demo.ck (2 ^ 53) z 455) ∧
    Fails (ctScalarMul Demo.scheme (Demo.cloud12.withBuild .debug) 91 (Demo.encVec [1, 0, 1])) (.panic .overflow) :=
  ⟨(C13_scalar_mul Demo.st12 Demo.shipped12 (k := 91) (by norm_num) (by norm_num) Demo.valid5).mono
    fun _ h => h.1.congr (by norm_num), C50_scalar_mul_91 _ _ _⟩

end Parm
