import Verif.Model.ScalarMul

/-!
# Operations that do not read all fields of the cloud data

Two clouds with the same message modulus and bootstraps are indistinguishable to every
operation except `sgn`, `max`, `relu`, `round_at` (which also read the quadratic weight),
`add_const` (which also reads the precision and the build profile) and `scalar_mul` (which also
reads the chain table and the build profile).
-/

namespace Parm

/-- same message modulus and bootstraps -/
structure CloudAgree (S : Scheme) (pc pc' : Cloud) : Prop where
  msgMod : pc.msgMod = pc'.msgMod
  lut : ∀ c l, evalLut5Float S pc c l = evalLut5Float S pc' c l

variable {S : Scheme} {pc pc' : Cloud} (h : CloudAgree S pc pc')
include h

theorem CloudAgree.triv (k : Int) : encryptWordTriv S.C pc k = encryptWordTriv S.C pc' k := by
  unfold encryptWordTriv; rw [h.msgMod]

theorem CloudAgree.trivCt (n : Nat) : trivCt S.C pc n = trivCt S.C pc' n := by
  unfold Parm.trivCt; rw [h.triv]

theorem CloudAgree.shift (x : Ctxt S.C) (k : Nat) : ctShift pc x k = ctShift pc' x k := by
  unfold ctShift; rw [h.trivCt]

theorem CloudAgree.uint (c : Word S.C) (l : List Nat) : evalLut5Uint S pc c l = evalLut5Uint S pc' c l := by
  unfold evalLut5Uint; rw [h.lut]

theorem CloudAgree.addSubImpl (isAdd : Bool) (x y : Ctxt S.C) (refresh : Bool) :
    addSubImpl S isAdd pc x y refresh = addSubImpl S isAdd pc' x y refresh := by
  unfold Parm.addSubImpl pbsF4 pbsId
  simp only [h.triv, h.trivCt, h.uint]

theorem CloudAgree.add (x y : Ctxt S.C) : ctAdd S pc x y = ctAdd S pc' x y := by
  unfold ctAdd; rw [h.addSubImpl]
theorem CloudAgree.sub (x y : Ctxt S.C) : ctSub S pc x y = ctSub S pc' x y := by
  unfold ctSub; rw [h.addSubImpl]
theorem CloudAgree.addNoisy (x y : Ctxt S.C) : ctAddNoisy S pc x y = ctAddNoisy S pc' x y := by
  unfold ctAddNoisy; rw [h.addSubImpl]
theorem CloudAgree.subNoisy (x y : Ctxt S.C) : ctSubNoisy S pc x y = ctSubNoisy S pc' x y := by
  unfold ctSubNoisy; rw [h.addSubImpl]

theorem CloudAgree.sgnRecursionRaw (hq : pc.params.quadWeight = pc'.params.quadWeight) : ∀ (fuel : Nat) (x : Ctxt S.C) (first : Bool),
    sgnRecursionRaw S pc fuel x first = sgnRecursionRaw S pc' fuel x first := by
  intro fuel
  have h1 : sgnFirst S pc = sgnFirst S pc' := by
    funext x j b
    unfold sgnFirst pbsF1
    simp only [h.uint, hq]
  have h2 : sgnNext S pc = sgnNext S pc' := by
    funext x j b
    unfold sgnNext pbsF1
    simp only [h.uint, h.trivCt]
  induction fuel with
  | zero =>
    intro x first
    unfold Parm.sgnRecursionRaw
    rw [h.trivCt]
  | succ fuel ih =>
    intro x first
    unfold Parm.sgnRecursionRaw
    simp only [h.trivCt, h1, h2, ih]

theorem CloudAgree.sgn (hq : pc.params.quadWeight = pc'.params.quadWeight) (x : Ctxt S.C) : ctSgn S pc x = ctSgn S pc' x := by
  unfold ctSgn sgnImpl pbsF1
  simp only [h.sgnRecursionRaw hq, h.uint]

theorem CloudAgree.maxImpl (hq : pc.params.quadWeight = pc'.params.quadWeight) (x y : Ctxt S.C) : maxImpl S pc x y = maxImpl S pc' x y := by
  unfold Parm.maxImpl pbsNonneg pbsF1 pbsMax
  simp only [h.sub, h.sgnRecursionRaw hq, h.lut, h.triv, h.trivCt, hq, h.uint]

theorem CloudAgree.max (hq : pc.params.quadWeight = pc'.params.quadWeight) (x y : Ctxt S.C) : ctMax S pc x y = ctMax S pc' x y := by
  unfold ctMax; rw [h.maxImpl hq]
theorem CloudAgree.relu (hq : pc.params.quadWeight = pc'.params.quadWeight) (x : Ctxt S.C) : ctRelu S pc x = ctRelu S pc' x := by
  unfold ctRelu; rw [h.maxImpl hq]

theorem CloudAgree.roundAt (hq : pc.params.quadWeight = pc'.params.quadWeight) (x : Ctxt S.C) (p : Nat) : ctRoundAt S pc x p = ctRoundAt S pc' x p := by
  unfold ctRoundAt roundAtImpl pbsRound
  simp only [h.sgn hq, h.uint, h.trivCt, h.shift, h.add]

theorem CloudAgree.fillMulary (x y : Ctxt S.C) : fillMulary S pc x y = fillMulary S pc' x y := by
  unfold Parm.fillMulary mulLwe pbsMulBit
  simp only [h.trivCt, h.uint]

theorem CloudAgree.reduceLoop : ∀ (rows : List (Ctxt S.C)) (c o : Ctxt S.C),
    reduceLoop S pc rows c o = reduceLoop S pc' rows c o := by
  intro rows
  induction rows with
  | nil => intro c o; rfl
  | cons r rows ih =>
    intro c o
    unfold Parm.reduceLoop
    simp only [h.add, ih]

theorem CloudAgree.reduceMulsquary (rows : List (Ctxt S.C)) :
    reduceMulsquary S pc rows = reduceMulsquary S pc' rows := by
  unfold Parm.reduceMulsquary
  simp only [h.add, h.reduceLoop]

theorem CloudAgree.mulKaratsuba (f : Ctxt S.C → Ctxt S.C → M (Ctxt S.C)) (x y : Ctxt S.C) :
    mulKaratsuba S pc f x y = mulKaratsuba S pc' f x y := by
  unfold Parm.mulKaratsuba
  simp only [h.add, h.trivCt, h.shift]

theorem CloudAgree.mulImpl : ∀ (fuel : Nat) (x y : Ctxt S.C),
    mulImpl S pc fuel x y = mulImpl S pc' fuel x y := by
  intro fuel
  induction fuel with
  | zero =>
    intro x y
    unfold Parm.mulImpl mul1word mulSchoolbook mulAlign
    simp only [h.fillMulary, h.reduceMulsquary, h.triv]
  | succ fuel ih =>
    intro x y
    unfold Parm.mulImpl mul1word mulSchoolbook mulAlign
    simp only [h.fillMulary, h.reduceMulsquary, h.triv, h.mulKaratsuba, ih]

theorem CloudAgree.mul (x y : Ctxt S.C) : ctMul S pc x y = ctMul S pc' x y := by
  unfold ctMul; rw [h.mulImpl]

theorem CloudAgree.squDnq (f : Ctxt S.C → M (Ctxt S.C)) (x : Ctxt S.C) :
    squDnq S pc f x = squDnq S pc' f x := by
  unfold Parm.squDnq
  simp only [h.add, h.mul, h.shift]

theorem CloudAgree.squImpl : ∀ (fuel : Nat) (x : Ctxt S.C), squImpl S pc fuel x = squImpl S pc' fuel x := by
  have h1 : squ1word S pc = squ1word S pc' := by
    funext x
    unfold squ1word pbsA1
    simp only [h.uint]
  have h3 : pbsSqu3 S pc = pbsSqu3 S pc' := by
    funext c pos
    unfold pbsSqu3
    simp only [h.uint, h.triv]
  have h2 : squ23word S pc = squ23word S pc' := by
    funext x
    unfold squ23word
    simp only [h3, h.trivCt, h.triv]
  intro fuel
  induction fuel with
  | zero =>
    intro x
    unfold Parm.squImpl
    simp only [h1, h2]
  | succ fuel ih =>
    intro x
    unfold Parm.squImpl
    simp only [h1, h2, h.squDnq, ih]

theorem CloudAgree.squ (x : Ctxt S.C) : ctSqu S pc x = ctSqu S pc' x := by
  unfold ctSqu; rw [h.squImpl]

theorem CloudAgree.addConst (hb : pc.build = pc'.build) (hp : pc.params.bitPrecision = pc'.params.bitPrecision)
    (x : Ctxt S.C) (k : Int) : ctAddConst S pc x k = ctAddConst S pc' x k := by
  unfold ctAddConst addConstImpl Params.plaintextMask
  simp only [h.add, h.triv, hb, hp]

theorem CloudAgree.ascLoop : ∀ (c : Asc) (v : List (Ctxt S.C)),
    ascLoop (ascArith S pc) c v = ascLoop (ascArith S pc') c v
  | [], _ => rfl
  | e :: es, v => by
    have ha : ∀ x y, (ascArith S pc).add x y = (ascArith S pc').add x y := h.add
    have hs : ∀ x k, (ascArith S pc).shift x k = (ascArith S pc').shift x k := fun x k =>
      congrArg pure (h.shift x k)
    have ho : ∀ x, (ascArith S pc).opp x = (ascArith S pc').opp x := fun _ => rfl
    unfold Parm.ascLoop ascStep
    simp only [ha, hs, ho]
    congr 1
    funext w
    exact CloudAgree.ascLoop es w

theorem CloudAgree.ascEval (c : Asc) (x : Ctxt S.C) :
    ascEval (ascArith S pc) c x = ascEval (ascArith S pc') c x := by
  unfold Parm.ascEval
  rw [h.ascLoop]

theorem CloudAgree.scalarMul (hb : pc.build = pc'.build) (ha : pc.asc = pc'.asc) (k : Int) (x : Ctxt S.C) :
    ctScalarMul S pc k x = ctScalarMul S pc' k x := by
  unfold ctScalarMul scalarMulImpl
  simp only [h.ascEval, h.shift, h.reduceMulsquary, hb, ha]

end Parm
