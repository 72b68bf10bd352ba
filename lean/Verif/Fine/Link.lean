import Verif.Fine.Rel

/-!
# Every function of the model and its copy with interleaved tasks
-/

namespace Parm
namespace Fine

/-- a function that has been dealt with -/
syntax "fine_known" : tactic
macro_rules | `(tactic| fine_known) => `(tactic| with_reducible exact Runs.pure _)
macro_rules | `(tactic| fine_known) => `(tactic| with_reducible exact Runs.err _)
macro_rules | `(tactic| fine_known) => `(tactic| with_reducible exact Runs.panic _)
macro_rules | `(tactic| fine_known) => `(tactic| with_reducible exact Runs.bumpPbs)
macro_rules | `(tactic| fine_known) => `(tactic| with_reducible exact Runs.idx _ _)
macro_rules | `(tactic| fine_known) => `(tactic| with_reducible exact Runs.setIdx _ _ _)

/-- goes through two copies of the same text -/
macro "fine" : tactic => `(tactic| repeat' first
  | fine_known
  | with_reducible apply Runs.parFor
  | with_reducible apply Runs.seqFor
  | with_reducible apply Runs.par2
  | with_reducible apply Runs.par3
  | with_reducible apply Runs.call
  | with_reducible apply Runs.expect
  | with_reducible apply Runs.bind
  | with_reducible refine Runs.ite (fun _ => ?_) (fun _ => ?_)
  | intro _)

namespace Runs

theorem i32Op (b : Build) (x : Int) : Runs (Fine.i32Op b x) (Parm.i32Op b x) := by
  unfold Fine.i32Op Parm.i32Op; cases b <;> fine
theorem i64Op (b : Build) (x : Int) : Runs (Fine.i64Op b x) (Parm.i64Op b x) := by
  unfold Fine.i64Op Parm.i64Op; cases b <;> fine
theorem u32Op (b : Build) (x : Int) : Runs (Fine.u32Op b x) (Parm.u32Op b x) := by
  unfold Fine.u32Op Parm.u32Op; cases b <;> fine
theorem shAmt64 (b : Build) (i : Nat) : Runs (Fine.shAmt64 b i) (Parm.shAmt64 b i) := by
  unfold Fine.shAmt64 Parm.shAmt64; cases b <;> fine

macro_rules | `(tactic| fine_known) => `(tactic| with_reducible exact Runs.i32Op _ _)
macro_rules | `(tactic| fine_known) => `(tactic| with_reducible exact Runs.i64Op _ _)
macro_rules | `(tactic| fine_known) => `(tactic| with_reducible exact Runs.u32Op _ _)
macro_rules | `(tactic| fine_known) => `(tactic| with_reducible exact Runs.shAmt64 _ _)

theorem decryptMu {S : Scheme} (ck : Option (ClientKey S)) (w : Word S.C) :
    Runs (Fine.decryptMu ck w) (Parm.decryptMu ck w) := by
  unfold Fine.decryptMu Parm.decryptMu
  cases w.ct <;> cases ck <;> fine
macro_rules | `(tactic| fine_known) => `(tactic| with_reducible exact Runs.decryptMu _ _)

theorem decryptMi {S : Scheme} (ck : Option (ClientKey S)) (w : Word S.C) :
    Runs (Fine.decryptMi ck w) (Parm.decryptMi ck w) := by
  unfold Fine.decryptMi Parm.decryptMi
  fine
macro_rules | `(tactic| fine_known) => `(tactic| with_reducible exact Runs.decryptMi _ _)

/-! ### pbs.rs -/

theorem evalLut5Float (S : Scheme) (pc : Cloud) (c : Word S.C) (lut : List Int) :
    Runs (Fine.evalLut5Float S pc c lut) (Parm.evalLut5Float S pc c lut) := by
  unfold Fine.evalLut5Float Parm.evalLut5Float
  cases c.ct <;> dsimp only <;> fine
macro_rules | `(tactic| fine_known) => `(tactic| with_reducible exact Runs.evalLut5Float _ _ _ _)

theorem evalLut5Uint (S : Scheme) (pc : Cloud) (c : Word S.C) (lut : List Nat) :
    Runs (Fine.evalLut5Uint S pc c lut) (Parm.evalLut5Uint S pc c lut) := evalLut5Float ..
macro_rules | `(tactic| fine_known) => `(tactic| with_reducible exact Runs.evalLut5Uint _ _ _ _)

section
variable (S : Scheme) (pc : Cloud) (c : Word S.C)
theorem pbsId : Runs (Fine.pbsId S pc c) (Parm.pbsId S pc c) := evalLut5Uint ..
theorem pbsF4 : Runs (Fine.pbsF4 S pc c) (Parm.pbsF4 S pc c) := evalLut5Uint ..
theorem pbsF1 (val : Nat) : Runs (Fine.pbsF1 S pc c val) (Parm.pbsF1 S pc c val) := evalLut5Uint ..
theorem pbsA1 : Runs (Fine.pbsA1 S pc c) (Parm.pbsA1 S pc c) := evalLut5Uint ..
theorem pbsMulBit : Runs (Fine.pbsMulBit S pc c) (Parm.pbsMulBit S pc c) := evalLut5Uint ..
theorem pbsRound : Runs (Fine.pbsRound S pc c) (Parm.pbsRound S pc c) := evalLut5Uint ..
theorem pbsMax : Runs (Fine.pbsMax S pc c) (Parm.pbsMax S pc c) := evalLut5Uint ..
theorem pbsNonneg : Runs (Fine.pbsNonneg S pc c) (Parm.pbsNonneg S pc c) := by
  unfold Fine.pbsNonneg Parm.pbsNonneg; fine
theorem pbsSqu3 (pos : Nat) : Runs (Fine.pbsSqu3 S pc c pos) (Parm.pbsSqu3 S pc c pos) := by
  unfold Fine.pbsSqu3 Parm.pbsSqu3
  match pos with
  | 0 => exact evalLut5Uint ..
  | 1 => exact pure _
  | 2 => exact evalLut5Uint ..
  | 3 => exact evalLut5Uint ..
  | 4 => exact evalLut5Uint ..
  | 5 => exact evalLut5Uint ..
  | _ + 6 => exact panic _
end
macro_rules | `(tactic| fine_known) => `(tactic| with_reducible exact Runs.pbsId _ _ _)
macro_rules | `(tactic| fine_known) => `(tactic| with_reducible exact Runs.pbsF4 _ _ _)
macro_rules | `(tactic| fine_known) => `(tactic| with_reducible exact Runs.pbsF1 _ _ _ _)
macro_rules | `(tactic| fine_known) => `(tactic| with_reducible exact Runs.pbsA1 _ _ _)
macro_rules | `(tactic| fine_known) => `(tactic| with_reducible exact Runs.pbsMulBit _ _ _)
macro_rules | `(tactic| fine_known) => `(tactic| with_reducible exact Runs.pbsRound _ _ _)
macro_rules | `(tactic| fine_known) => `(tactic| with_reducible exact Runs.pbsMax _ _ _)
macro_rules | `(tactic| fine_known) => `(tactic| with_reducible exact Runs.pbsNonneg _ _ _)
macro_rules | `(tactic| fine_known) => `(tactic| with_reducible exact Runs.pbsSqu3 _ _ _ _)

variable (S : Scheme) (pc : Cloud)

/-! ### addition.rs -/

theorem addSubImpl (isAdd : Bool) (x y : Ctxt S.C) (refresh : Bool) :
    Runs (Fine.addSubImpl S isAdd pc x y refresh) (Parm.addSubImpl S isAdd pc x y refresh) := by
  unfold Fine.addSubImpl Parm.addSubImpl
  dsimp only
  fine
  cases List.getLast? _ <;> fine
macro_rules | `(tactic| fine_known) => `(tactic| with_reducible exact Runs.addSubImpl _ _ _ _ _ _)

theorem ctAdd (x y : Ctxt S.C) : Runs (Fine.ctAdd S pc x y) (Parm.ctAdd S pc x y) := call (addSubImpl ..)
theorem ctSub (x y : Ctxt S.C) : Runs (Fine.ctSub S pc x y) (Parm.ctSub S pc x y) := call (addSubImpl ..)
theorem ctAddNoisy (x y : Ctxt S.C) : Runs (Fine.ctAddNoisy S pc x y) (Parm.ctAddNoisy S pc x y) :=
  call (addSubImpl ..)
theorem ctSubNoisy (x y : Ctxt S.C) : Runs (Fine.ctSubNoisy S pc x y) (Parm.ctSubNoisy S pc x y) :=
  call (addSubImpl ..)
macro_rules | `(tactic| fine_known) => `(tactic| with_reducible exact Runs.ctAdd _ _ _ _)
macro_rules | `(tactic| fine_known) => `(tactic| with_reducible exact Runs.ctSub _ _ _ _)

theorem ctAddConst (x : Ctxt S.C) (k : Int) : Runs (Fine.ctAddConst S pc x k) (Parm.ctAddConst S pc x k) := by
  refine call ?_
  unfold Fine.addConstImpl Parm.addConstImpl
  fine

/-! ### signum.rs, maximum.rs, rounding.rs -/

theorem sgnFirst (x : Ctxt S.C) (j : Nat) (bj : Word S.C) :
    Runs (Fine.sgnFirst S pc x j bj) (Parm.sgnFirst S pc x j bj) := by
  unfold Fine.sgnFirst Parm.sgnFirst
  fine
macro_rules | `(tactic| fine_known) => `(tactic| with_reducible exact Runs.sgnFirst _ _ _ _ _)

theorem sgnNext (x : Ctxt S.C) (j : Nat) (bj : Word S.C) :
    Runs (Fine.sgnNext S pc x j bj) (Parm.sgnNext S pc x j bj) := by
  unfold Fine.sgnNext Parm.sgnNext
  fine
macro_rules | `(tactic| fine_known) => `(tactic| with_reducible exact Runs.sgnNext _ _ _ _ _)

theorem sgnRecursionRaw : ∀ (fuel : Nat) (x : Ctxt S.C) (first : Bool),
    Runs (Fine.sgnRecursionRaw S pc fuel x first) (Parm.sgnRecursionRaw S pc fuel x first)
  | 0, x, first => by
    unfold Fine.sgnRecursionRaw Parm.sgnRecursionRaw
    fine
  | fuel + 1, x, first => by
    have ih := sgnRecursionRaw fuel
    unfold Fine.sgnRecursionRaw Parm.sgnRecursionRaw
    fine
    exact ih _ _
macro_rules | `(tactic| fine_known) => `(tactic| with_reducible exact Runs.sgnRecursionRaw _ _ _ _ _)

theorem ctSgn (x : Ctxt S.C) : Runs (Fine.ctSgn S pc x) (Parm.ctSgn S pc x) := by
  refine call ?_
  unfold Fine.sgnImpl Parm.sgnImpl
  fine
macro_rules | `(tactic| fine_known) => `(tactic| with_reducible exact Runs.ctSgn _ _ _)

theorem maxImpl (x y : Ctxt S.C) : Runs (Fine.maxImpl S pc x y) (Parm.maxImpl S pc x y) := by
  unfold Fine.maxImpl Parm.maxImpl
  fine

theorem ctMax (x y : Ctxt S.C) : Runs (Fine.ctMax S pc x y) (Parm.ctMax S pc x y) := call (maxImpl ..)
theorem ctRelu (x : Ctxt S.C) : Runs (Fine.ctRelu S pc x) (Parm.ctRelu S pc x) := call (maxImpl ..)

theorem ctRoundAt (x : Ctxt S.C) (pos : Nat) : Runs (Fine.ctRoundAt S pc x pos) (Parm.ctRoundAt S pc x pos) := by
  refine call ?_
  unfold Fine.roundAtImpl Parm.roundAtImpl
  fine

/-! ### multiplication.rs, squaring.rs -/

theorem mulLwe (x y : Word S.C) : Runs (Fine.mulLwe S pc x y) (Parm.mulLwe S pc x y) := by
  unfold Fine.mulLwe Parm.mulLwe
  fine
macro_rules | `(tactic| fine_known) => `(tactic| with_reducible exact Runs.mulLwe _ _ _ _)

theorem fillMulary (x y : Ctxt S.C) : Runs (Fine.fillMulary S pc x y) (Parm.fillMulary S pc x y) := by
  unfold Fine.fillMulary Parm.fillMulary
  dsimp only
  fine
macro_rules | `(tactic| fine_known) => `(tactic| with_reducible exact Runs.fillMulary _ _ _ _)

theorem reduceLoop : ∀ (rows : List (Ctxt S.C)) (cur other : Ctxt S.C),
    Runs (Fine.reduceLoop S pc rows cur other) (Parm.reduceLoop S pc rows cur other)
  | [], _, _ => pure _
  | _ :: rows, _, _ => bind (ctAdd ..) fun _ => reduceLoop rows _ _
macro_rules | `(tactic| fine_known) => `(tactic| with_reducible exact Runs.reduceLoop _ _ _ _ _)

theorem reduceMulsquary (a : List (Ctxt S.C)) : Runs (Fine.reduceMulsquary S pc a) (Parm.reduceMulsquary S pc a) := by
  unfold Fine.reduceMulsquary Parm.reduceMulsquary
  fine
macro_rules | `(tactic| fine_known) => `(tactic| with_reducible exact Runs.reduceMulsquary _ _ _)

theorem mulSchoolbook (x y : Ctxt S.C) : Runs (Fine.mulSchoolbook S pc x y) (Parm.mulSchoolbook S pc x y) := by
  unfold Fine.mulSchoolbook Parm.mulSchoolbook
  fine

theorem mul1word (x y : Ctxt S.C) : Runs (Fine.mul1word S pc x y) (Parm.mul1word S pc x y) := by
  unfold Fine.mul1word Parm.mul1word
  fine
macro_rules | `(tactic| fine_known) => `(tactic| with_reducible exact Runs.mulSchoolbook _ _ _ _)
macro_rules | `(tactic| fine_known) => `(tactic| with_reducible exact Runs.mul1word _ _ _ _)

theorem mulKaratsuba {f : Ctxt S.C → Ctxt S.C → P (Ctxt S.C)} {g : Ctxt S.C → Ctxt S.C → M (Ctxt S.C)}
    (h : ∀ a b, Runs (f a b) (g a b)) (x y : Ctxt S.C) :
    Runs (Fine.mulKaratsuba S pc f x y) (Parm.mulKaratsuba S pc g x y) := by
  unfold Fine.mulKaratsuba Parm.mulKaratsuba
  dsimp only
  fine
  all_goals exact h _ _

theorem mulImpl : ∀ (fuel : Nat) (x y : Ctxt S.C), Runs (Fine.mulImpl S pc fuel x y) (Parm.mulImpl S pc fuel x y)
  | 0, x, y => by
    unfold Fine.mulImpl Parm.mulImpl
    dsimp only
    fine
  | fuel + 1, x, y => by
    have ih := mulImpl fuel
    unfold Fine.mulImpl Parm.mulImpl
    dsimp only
    fine
    exact mulKaratsuba S pc (fun a b => call (ih a b)) _ _

theorem ctMul (x y : Ctxt S.C) : Runs (Fine.ctMul S pc x y) (Parm.ctMul S pc x y) := call (mulImpl ..)
macro_rules | `(tactic| fine_known) => `(tactic| with_reducible exact Runs.ctMul _ _ _ _)

theorem squ1word (x : Ctxt S.C) : Runs (Fine.squ1word S pc x) (Parm.squ1word S pc x) := by
  unfold Fine.squ1word Parm.squ1word
  fine

theorem squ23word (x : Ctxt S.C) : Runs (Fine.squ23word S pc x) (Parm.squ23word S pc x) := by
  unfold Fine.squ23word Parm.squ23word
  fine
macro_rules | `(tactic| fine_known) => `(tactic| with_reducible exact Runs.squ1word _ _ _)
macro_rules | `(tactic| fine_known) => `(tactic| with_reducible exact Runs.squ23word _ _ _)

theorem squDnq {f : Ctxt S.C → P (Ctxt S.C)} {g : Ctxt S.C → M (Ctxt S.C)} (h : ∀ a, Runs (f a) (g a))
    (x : Ctxt S.C) : Runs (Fine.squDnq S pc f x) (Parm.squDnq S pc g x) := by
  unfold Fine.squDnq Parm.squDnq
  dsimp only
  fine
  all_goals exact h _

theorem squImpl : ∀ (fuel : Nat) (x : Ctxt S.C), Runs (Fine.squImpl S pc fuel x) (Parm.squImpl S pc fuel x)
  | 0, x => by
    unfold Fine.squImpl Parm.squImpl
    fine
  | fuel + 1, x => by
    have ih := squImpl fuel
    unfold Fine.squImpl Parm.squImpl
    fine
    exact squDnq S pc (fun a => call (ih a)) _

theorem ctSqu (x : Ctxt S.C) : Runs (Fine.ctSqu S pc x) (Parm.ctSqu S pc x) := call (squImpl ..)

/-! ### naf.rs -/

theorem convertFromVecLoop (b : Build) : ∀ (l : List Int) (i : Nat) (m : Int),
    Runs (Fine.convertFromVecLoop b i m l) (Parm.convertFromVecLoop b i m l)
  | [], _, _ => pure _
  | _ :: l, i, m => by
    have ih := convertFromVecLoop b l
    unfold Fine.convertFromVecLoop Parm.convertFromVecLoop
    dsimp only
    fine
    exact ih _ _

theorem convertFromVec (b : Build) (v : List Int) : Runs (Fine.convertFromVec b v) (Parm.convertFromVec b v) :=
  ite (fun _ => err _) (fun _ => convertFromVecLoop ..)
macro_rules | `(tactic| fine_known) => `(tactic| with_reducible exact Runs.convertFromVec _ _)

theorem u32Bit (b : Build) (k i : Nat) : Runs (Fine.u32Bit b k i) (Parm.u32Bit b k i) := by
  unfold Fine.u32Bit Parm.u32Bit
  cases b <;> fine
macro_rules | `(tactic| fine_known) => `(tactic| with_reducible exact Runs.u32Bit _ _ _)

theorem u32BitPred (b : Build) (k i : Nat) : Runs (Fine.u32BitPred b k i) (Parm.u32BitPred b k i) := by
  unfold Fine.u32BitPred Parm.u32BitPred
  fine
macro_rules | `(tactic| fine_known) => `(tactic| with_reducible exact Runs.u32BitPred _ _ _)

theorem fillWhile {f : Nat → P Int} {g : Nat → M Int} (h : ∀ i, Runs (f i) (g i)) : ∀ (n j : Nat) (v : List Int),
    Runs (Fine.fillWhile f n j v) (Parm.fillWhile g n j v)
  | 0, _, _ => pure _
  | n + 1, _, _ => bind (h _) fun _ => bind (setIdx ..) fun _ => fillWhile h n _ _
macro_rules | `(tactic| fine_known) => `(tactic| with_reducible refine Runs.fillWhile (fun _ => ?_) _ _ _)

theorem ktStep (b : Build) (k : Nat) (s : KtSt) : Runs (Fine.ktStep b k s) (Parm.ktStep b k s) := by
  unfold Fine.ktStep Parm.ktStep
  dsimp only
  fine

theorem ktLoop (b : Build) (k : Nat) : ∀ (n : Nat) (s : KtSt), Runs (Fine.ktLoop b k n s) (Parm.ktLoop b k n s)
  | 0, _ => pure _
  | n + 1, _ => bind (ktStep ..) fun _ => ktLoop b k n _

theorem ktFinish (b : Build) (k : Nat) (s : KtSt) : Runs (Fine.ktFinish b k s) (Parm.ktFinish b k s) := by
  unfold Fine.ktFinish Parm.ktFinish
  dsimp only
  fine
macro_rules | `(tactic| fine_known) => `(tactic| with_reducible exact Runs.ktLoop _ _ _ _)
macro_rules | `(tactic| fine_known) => `(tactic| with_reducible exact Runs.ktFinish _ _ _)

theorem koyamaTsuruokaVec (b : Build) (k : Nat) : Runs (Fine.koyamaTsuruokaVec b k) (Parm.koyamaTsuruokaVec b k) := by
  unfold Fine.koyamaTsuruokaVec Parm.koyamaTsuruokaVec
  dsimp only
  fine
macro_rules | `(tactic| fine_known) => `(tactic| with_reducible exact Runs.koyamaTsuruokaVec _ _)

theorem windShiftsLoop (b : Build) (v : List Int) (bitlen : Nat) : ∀ (fuel sh : Nat),
    Runs (Fine.windShiftsLoop b v bitlen fuel sh) (Parm.windShiftsLoop b v bitlen fuel sh)
  | 0, _ => panic _
  | fuel + 1, sh => by
    have ih := windShiftsLoop b v bitlen fuel
    unfold Fine.windShiftsLoop Parm.windShiftsLoop
    dsimp only
    fine
    exact ih _
macro_rules | `(tactic| fine_known) => `(tactic| with_reducible exact Runs.windShiftsLoop _ _ _ _ _)

theorem windShifts (b : Build) (k bitlen : Nat) : Runs (Fine.windShifts b k bitlen) (Parm.windShifts b k bitlen) := by
  unfold Fine.windShifts Parm.windShifts
  fine
macro_rules | `(tactic| fine_known) => `(tactic| with_reducible exact Runs.windShifts _ _ _)

end Runs

/-! ### The interface, and everything that is written against it -/

/-- two instances of the interface -/
structure RunsArith {T : Type} (A : Fine.Arith T) (B : Parm.Arith T) : Prop where
  zero : A.zero = B.zero
  opp : ∀ x, Runs (A.opp x) (B.opp x)
  shift : ∀ x k, Runs (A.shift x k) (B.shift x k)
  add : ∀ x y, Runs (A.add x y) (B.add x y)
  sub : ∀ x y, Runs (A.sub x y) (B.sub x y)
  addConst : ∀ x k, Runs (A.addConst x k) (B.addConst x k)
  scalarMul : ∀ k x, Runs (A.scalarMul k x) (B.scalarMul k x)
  sgn : ∀ x, Runs (A.sgn x) (B.sgn x)
  max : ∀ x y, Runs (A.max x y) (B.max x y)
  relu : ∀ x, Runs (A.relu x) (B.relu x)
  mul : ∀ x y, Runs (A.mul x y) (B.mul x y)
  squ : ∀ x, Runs (A.squ x) (B.squ x)
  roundAt : ∀ x p, Runs (A.roundAt x p) (B.roundAt x p)

namespace Runs
variable {T : Type} {A : Fine.Arith T} {B : Parm.Arith T}

theorem ascStep (h : RunsArith A B) (v : List T) (e : AddShift) :
    Runs (Fine.ascStep A v e) (Parm.ascStep B v e) :=
  bind (idx ..) fun _ => bind (h.opp _) fun _ => bind (idx ..) fun _ => bind (h.shift _ _) fun _ =>
    bind (h.opp _) fun _ => bind (h.add _ _) fun _ => pure _

theorem ascLoop (h : RunsArith A B) : ∀ (c : Asc) (v : List T), Runs (Fine.ascLoop A c v) (Parm.ascLoop B c v)
  | [], _ => pure _
  | _ :: es, _ => bind (ascStep h _ _) fun _ => ascLoop h es _

theorem ascEval (h : RunsArith A B) (c : Asc) (x : T) : Runs (Fine.ascEval A c x) (Parm.ascEval B c x) := by
  refine bind (ascLoop h _ _) fun v => ?_
  cases List.getLast? v <;> fine

theorem ascArith (S : Scheme) (pc : Cloud) : RunsArith (Fine.ascArith S pc) (Parm.ascArith S pc) where
  zero := rfl
  opp _ := pure _
  shift _ _ := pure _
  add := ctAdd S pc
  sub := ctSub S pc
  addConst := ctAddConst S pc
  scalarMul _ _ := panic _
  sgn := ctSgn S pc
  max := ctMax S pc
  relu := ctRelu S pc
  mul := ctMul S pc
  squ := ctSqu S pc
  roundAt := ctRoundAt S pc

theorem mapIdx {V : Type} (m : List (Nat × V)) (k : Nat) : Runs (Fine.mapIdx m k) (Parm.mapIdx m k) := by
  unfold Fine.mapIdx Parm.mapIdx
  cases mapGet? m k <;> fine
macro_rules | `(tactic| fine_known) => `(tactic| with_reducible exact Runs.mapIdx _ _)
macro_rules | `(tactic| fine_known) => `(tactic| with_reducible exact Runs.ascEval (Runs.ascArith _ _) _ _)

theorem ctScalarMul (S : Scheme) (pc : Cloud) (k : Int) (x : Ctxt S.C) :
    Runs (Fine.ctScalarMul S pc k x) (Parm.ctScalarMul S pc k x) := by
  refine call ?_
  unfold Fine.scalarMulImpl Parm.scalarMulImpl
  dsimp only
  fine

theorem arithCt (S : Scheme) (pc : Cloud) : RunsArith (Fine.arithCt S pc) (Parm.arithCt S pc) := by
  have h := ascArith S pc
  unfold Fine.arithCt Parm.arithCt
  refine ⟨h.zero, h.opp, h.shift, h.add, h.sub, h.addConst, fun k x => ?_, h.sgn, h.max, h.relu, h.mul,
    h.squ, h.roundAt⟩
  dsimp only
  exact ctScalarMul S pc k x

/-! ### neural_network.rs -/

theorem affineLoop (h : RunsArith A B) : ∀ (w : List Int) (a : List T) (r : T),
    Runs (Fine.affineLoop A w a r) (Parm.affineLoop B w a r)
  | [], _, _ => pure _
  | _ :: _, [], _ => pure _
  | _ :: ws, _ :: as, _ => bind (h.scalarMul _ _) fun _ => bind (h.add _ _) fun _ => affineLoop h ws as _

theorem affinePool (h : RunsArith A B) (w : List Int) (a : List T) (b : Int) :
    Runs (Fine.affinePool A w a b) (Parm.affinePool B w a b) := by
  refine bind ?_ fun _ => h.addConst _ _
  rw [h.zero]
  exact affineLoop h _ _ _

theorem applyWeights (h : RunsArith A B) : ∀ (w : List Int) (a : List T),
    Runs (Fine.applyWeights A w a) (Parm.applyWeights B w a)
  | [], _ => pure _
  | _ :: _, [] => pure _
  | _ :: ws, _ :: as => bind (h.scalarMul _ _) fun _ => bind (applyWeights h ws as) fun _ => pure _

theorem maxChunks (h : RunsArith A B) : ∀ (a : List T), Runs (Fine.maxChunks A a) (Parm.maxChunks B a)
  | [] => pure _
  | [_] => pure _
  | _ :: _ :: rest => bind (h.max _ _) fun _ => bind (maxChunks h rest) fun _ => pure _

theorem maxPoolRecursion (h : RunsArith A B) : ∀ (fuel : Nat) (a : List T),
    Runs (Fine.maxPoolRecursion A fuel a) (Parm.maxPoolRecursion B fuel a)
  | 0, [] => by
    unfold Fine.maxPoolRecursion Parm.maxPoolRecursion; rw [h.zero]; exact pure _
  | _ + 1, [] => by
    unfold Fine.maxPoolRecursion Parm.maxPoolRecursion; rw [h.zero]; exact pure _
  | 0, [_] => pure _
  | _ + 1, [_] => pure _
  | 0, _ :: _ :: _ => panic _
  | fuel + 1, _ :: _ :: _ => bind (maxChunks h _) fun _ => maxPoolRecursion h fuel _

theorem maxPool (h : RunsArith A B) (w : List Int) (a : List T) (b : Int) :
    Runs (Fine.maxPool A w a b) (Parm.maxPool B w a b) :=
  bind (applyWeights h _ _) fun _ => bind (maxPoolRecursion h _ _) fun _ => h.addConst _ _

theorem evalPerc (h : RunsArith A B) (p : Perceptron) (a : List T) :
    Runs (Fine.evalPerc A p a) (Parm.evalPerc B p a) := by
  unfold Fine.evalPerc Parm.evalPerc
  cases p.t
  · exact maxPool h _ _ _
  · exact affinePool h _ _ _
  · exact bind (affinePool h _ _ _) fun _ => h.relu _

theorem evalLayer (h : RunsArith A B) : ∀ (l : List Perceptron) (a : List T),
    Runs (Fine.evalLayer A l a) (Parm.evalLayer B l a)
  | [], _ => pure _
  | _ :: ps, _ => bind (evalPerc h _ _) fun _ => bind (evalLayer h ps _) fun _ => pure _

theorem evalLayers (h : RunsArith A B) : ∀ (l : List (List Perceptron)) (il ol : List T),
    Runs (Fine.evalLayers A l il ol) (Parm.evalLayers B l il ol)
  | [], _, _ => pure _
  | _ :: ls, _, _ => bind (evalLayer h _ _) fun _ => evalLayers h ls _ _

theorem nnEval (h : RunsArith A B) (nn : NeuralNetwork) (a : List T) :
    Runs (Fine.NeuralNetwork.eval A nn a) (Parm.NeuralNetwork.eval B nn a) := evalLayers h _ _ _

/-! ### Programs -/

theorem instrRun (h : RunsArith A B) (r : List T) (i : Instr) :
    Runs (Fine.Instr.run A r i) (Parm.Instr.run B r i) := by
  cases i <;> simp only [Fine.Instr.run, Parm.Instr.run]
  case zero => rw [h.zero]; exact pure _
  case opp => exact bind (idx ..) fun _ => h.opp _
  case shift => exact bind (idx ..) fun _ => h.shift _ _
  case add => exact bind (idx ..) fun _ => bind (idx ..) fun _ => h.add _ _
  case sub => exact bind (idx ..) fun _ => bind (idx ..) fun _ => h.sub _ _
  case addConst => exact bind (idx ..) fun _ => h.addConst _ _
  case scalarMul => exact bind (idx ..) fun _ => h.scalarMul _ _
  case sgn => exact bind (idx ..) fun _ => h.sgn _
  case max => exact bind (idx ..) fun _ => bind (idx ..) fun _ => h.max _ _
  case relu => exact bind (idx ..) fun _ => h.relu _
  case mul => exact bind (idx ..) fun _ => bind (idx ..) fun _ => h.mul _ _
  case squ => exact bind (idx ..) fun _ => h.squ _
  case roundAt => exact bind (idx ..) fun _ => h.roundAt _ _

theorem runProg (h : RunsArith A B) : ∀ (p : List Instr) (r : List T),
    Runs (Fine.runProg A p r) (Parm.runProg B p r)
  | [], _ => pure _
  | _ :: is, _ => bind (instrRun h _ _) fun _ => runProg h is _

end Runs
end Fine
end Parm
