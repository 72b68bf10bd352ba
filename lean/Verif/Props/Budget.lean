import Verif.Props.Program
import Verif.Props.Tight

/-!
# The noise budget of the single operations (C85)

The setting of the correctness theorems asks for the budget of the most demanding operation.  A program that does not use
it needs less: whatever `quad_weight`, eight times the fresh noise is enough for all programs without sign, rounding,
maximum and ReLU.
-/

namespace Parm

/-- the setting, with the noise budget `t` instead of the one for all operations -/
structure Budget (S : Scheme) (ck : ClientKey S) (pc : Cloud) (B D t : Nat) : Prop where
  msgMod : pc.msgMod = 32
  carryMod : pc.carryMod = 1
  bitPrecision : pc.params.bitPrecision = 5
  polySize : ∃ logN, 5 ≤ logN ∧ logN ≤ 63 ∧ pc.polySize = 2 ^ logN
  sound : Sound S ck pc.polySize B D (t * B)
  tolerance : t * B + D < 2 ^ 58

/-- the multiple of the fresh noise an operation needs, by `quad_weight` -/
def Instr.budget (q : Nat) : Instr → Nat
  | .sgn _ => if 85 ≤ q then 15 else 8
  | .roundAt _ _ => if 85 ≤ q then 15 else 8
  | .max _ _ => if 85 ≤ q then 15 else if 41 ≤ q then 9 else 8
  | .relu _ => if 85 ≤ q then 15 else 8
  | _ => 8

section
variable {S : Scheme} {ck : ClientKey S} {pc : Cloud} {B D t : Nat}

theorem Sound.mono {N T T' : Nat} (h : Sound S ck N B D T) (hT : T' ≤ T) : Sound S ck N B D T' :=
  { h with phase_pbs := fun acc c m n hl hn hp => h.phase_pbs acc c m n hl (hn.trans hT) hp }

/-- the same cloud with another `quad_weight` -/
def Cloud.withWeight (pc : Cloud) (q : Nat) : Cloud := { pc with params := { pc.params with quadWeight := q } }

theorem CloudAgree.withWeight (S : Scheme) (pc : Cloud) (q : Nat) : CloudAgree S pc (pc.withWeight q) :=
  ⟨rfl, fun _ _ => rfl⟩

theorem CloudAgree.relu_iff {pc' : Cloud} (h : CloudAgree S pc pc')
    (h85 : pc.params.quadWeight ≥ 85 ↔ pc'.params.quadWeight ≥ 85)
    (h41 : pc.params.quadWeight ≥ 41 ↔ pc'.params.quadWeight ≥ 41) (x : Ctxt S.C) : ctRelu S pc x = ctRelu S pc' x :=
  h.max_iff h85 h41 (ctZero S.C) x

theorem CloudAgree.roundAt_iff {pc' : Cloud} (h : CloudAgree S pc pc')
    (h85 : pc.params.quadWeight ≥ 85 ↔ pc'.params.quadWeight ≥ 85) (x : Ctxt S.C) (p : Nat) :
    ctRoundAt S pc x p = ctRoundAt S pc' x p := by
  unfold ctRoundAt roundAtImpl pbsRound
  simp only [h.sgn_iff h85, h.uint, h.trivCt, h.shift, h.add]

theorem Budget.withWeight (h : Budget S ck pc B D t) {q : Nat} (hq : tolWeight q ≤ t) :
    Setting S ck (pc.withWeight q) B D :=
  ⟨h.msgMod, h.carryMod, h.bitPrecision, h.polySize, h.sound.mono (Nat.mul_le_mul_right B hq),
    lt_of_le_of_lt (Nat.add_le_add_right (Nat.mul_le_mul_right B hq) D) h.tolerance⟩

/-- ReLU multiplies by 6 without a bootstrap if `quad_weight` is at least 41, but needs no more tolerance for it: the
other operand of the maximum is trivial. -/
theorem ctRelu_direct (st : Setting S ck (pc.withWeight 40) B D) (h41 : 41 ≤ pc.params.quadWeight)
    (h85 : pc.params.quadWeight < 85) {y : Ctxt S.C} {v : Int} (hy : Valid ck B y v) :
    Yields (ctRelu S pc y) (fun z => Valid ck B z (max 0 v) ∧ z.length = y.length) := by
  have h := CloudAgree.withWeight S pc 40
  have h85' : pc.params.quadWeight ≥ 85 ↔ (pc.withWeight 40).params.quadWeight ≥ 85 := by
    show pc.params.quadWeight ≥ 85 ↔ 40 ≥ 85
    omega
  unfold ctRelu maxImpl pbsMax pbsNonneg
  simp only [h.sub, h.sgnRecursionRaw_iff h85', h.lut, h.triv, h.trivCt, h.uint, if_pos (show pc.params.quadWeight ≥ 41 from h41)]
  refine Yields.call ?_
  obtain ⟨dy, hdy, hgy, hzy, hvy⟩ := hy.canon
  refine Yields.bind (ctSub_valid st Valid.nil hy) ?_
  rintro r ⟨hr, _⟩
  refine Yields.bind (sgnRaw_first st hr) ?_
  rintro _ ⟨w, m, rfl, hw, hm1, hm2, hs⟩
  refine Yields.bind ((Returns.idx (show 0 < [w].length by simp)).yields rfl) ?_
  rintro _ rfl
  refine Yields.bind (pbsNonneg_spec st (st.tolSgn (le_refl _)) hw) ?_
  intro s hsw
  obtain ⟨σ, hσ⟩ : ∃ σ : Int, σ = if m % 32 < 16 then 1 else 0 := ⟨_, rfl⟩
  rw [← hσ] at hsw
  have hσd : σ = 0 ∨ σ = 1 := by rw [hσ]; split_ifs <;> simp
  have hσv : σ = 1 ↔ v ≤ 0 := by
    have h1 : σ = 1 ↔ 0 ≤ m := by
      rw [hσ]; split_ifs <;> simp <;> omega
    rw [h1, ← Int.sign_nonneg_iff, hs, Int.sign_nonneg_iff]
    omega
  have hlx : (ctZero S.C ++ List.replicate (y.length - (ctZero S.C).length)
      (encryptWordTriv S.C (pc.withWeight 40) 0)).length = y.length := by simp [ctZero, emptyCt]
  have hly : (y ++ List.replicate ((ctZero S.C).length - y.length)
      (encryptWordTriv S.C (pc.withWeight 40) 0)).length = y.length := by simp [ctZero, emptyCt]
  have hpy := Valid.pad st hdy hzy ((ctZero S.C).length - y.length)
  refine (Yields.parFor (P := fun i a => WordEnc ck B a (if σ = 1 then 0 else dy i) 1) ?_).mono ?_
  · intro i hi
    rw [length_trivCt] at hi
    have hi2 : i < (y ++ List.replicate ((ctZero S.C).length - y.length)
        (encryptWordTriv S.C (pc.withWeight 40) 0)).length := by omega
    refine Yields.bind ((Returns.idx hi).yields rfl) ?_
    rintro _ rfl
    refine Yields.bind ((Returns.idx hi2).yields rfl) ?_
    rintro _ rfl
    have hxi : WordEnc ck B (ctZero S.C ++ List.replicate (y.length - (ctZero S.C).length)
        (encryptWordTriv S.C (pc.withWeight 40) 0))[i] 0 0 := by
      simp only [ctZero, emptyCt, List.nil_append, List.getElem_replicate]
      exact WordEnc.triv st 0 0
    have hyi := hpy i hi2
    refine Yields.bind (P := fun t => WordEnc ck B t (6 * dy i) 6)
      (Yields.pure (by simpa using hyi.1.mulConst st 6 (by norm_num))) ?_
    intro t ht
    have h2 := (ht.add st (hxi.mulConst st 2 (by norm_num))).add st hsw
    have htol : 6 + Int.natAbs 2 * 0 + 1 ≤ tolWeight (pc.withWeight 40).params.quadWeight := by
      show 7 ≤ tolWeight 40
      decide
    refine (evalLut5Uint_spec st (lut := lutMax) (by decide) (by decide) htol h2).yields.mono ?_
    rintro a ⟨n, h3, _⟩
    exact h3.congr (tableMax isDigit_zero hyi.2 hσd)
  · rintro z ⟨hl, hz⟩
    rw [length_trivCt, hlx] at hl
    refine ⟨⟨fun i => if σ = 1 then 0 else dy i, ?_, ?_⟩, hl⟩
    · intro i hi
      refine ⟨hz i hi, ?_⟩
      simp only
      split_ifs
      · exact isDigit_zero
      · exact hgy i
    · by_cases h : σ = 1
      · simp only [h, if_true]
        have := hσv.1 h
        rw [max_eq_left this]
        exact valueN_zero fun i _ => rfl
      · simp only [h, if_false]
        rw [hl, hvy _ (by omega)]
        have : ¬ v ≤ 0 := fun hc => h (hσv.2 hc)
        omega

/-- an operation within a budget behaves as with a `quad_weight` that goes with the budget -/
theorem Instr.run_withWeight {q : Nat} (ins : Instr) (ht : ins.budget pc.params.quadWeight ≤ t)
    (hr : tolWeight pc.params.quadWeight ≤ t ∨ ∀ i, ins ≠ .relu i ∨ pc.params.quadWeight ≤ 40)
    (hq : q = if tolWeight pc.params.quadWeight ≤ t then pc.params.quadWeight else 40) (xs : List (Ctxt S.C)) :
    ins.run (arithCt S pc) xs = ins.run (arithCt S (pc.withWeight q)) xs := by
  have h := CloudAgree.withWeight S pc q
  have hw : (pc.withWeight q).params.quadWeight = q := rfl
  unfold tolWeight at hq
  cases ins <;> simp only [Instr.budget] at ht <;> unfold Instr.run arithCt ascArith
  case zero => rfl
  case opp => rfl
  case shift => simp only [h.shift]
  case add => simp only [h.add]
  case sub => simp only [h.sub]
  case addConst => simp only [h.addConst rfl rfl]
  case scalarMul => simp only [h.scalarMul rfl rfl]
  case mul => simp only [h.mul]
  case squ => simp only [h.squ]
  case sgn =>
    have h85 : pc.params.quadWeight ≥ 85 ↔ (pc.withWeight q).params.quadWeight ≥ 85 := by
      rw [hw, hq]; split_ifs at * <;> omega
    simp only [h.sgn_iff h85]
  case roundAt =>
    have h85 : pc.params.quadWeight ≥ 85 ↔ (pc.withWeight q).params.quadWeight ≥ 85 := by
      rw [hw, hq]; split_ifs at * <;> omega
    simp only [h.roundAt_iff h85]
  case max =>
    have h85 : pc.params.quadWeight ≥ 85 ↔ (pc.withWeight q).params.quadWeight ≥ 85 := by
      rw [hw, hq]; split_ifs at * <;> omega
    have h41 : pc.params.quadWeight ≥ 41 ↔ (pc.withWeight q).params.quadWeight ≥ 41 := by
      rw [hw, hq]; split_ifs at * <;> omega
    simp only [h.max_iff h85 h41]
  case relu i =>
    have hr' : tolWeight pc.params.quadWeight ≤ t ∨ pc.params.quadWeight ≤ 40 :=
      hr.imp id fun h => (h i).resolve_left (by simp)
    unfold tolWeight at hr'
    have h85 : pc.params.quadWeight ≥ 85 ↔ (pc.withWeight q).params.quadWeight ≥ 85 := by
      rw [hw, hq]; split_ifs at * <;> omega
    have h41 : pc.params.quadWeight ≥ 41 ↔ (pc.withWeight q).params.quadWeight ≥ 41 := by
      rw [hw, hq]; split_ifs at * <;> omega
    simp only [h.relu_iff h85 h41]

theorem Instr.run_budget (h8 : 8 ≤ t) (hb : Budget S ck pc B D t) {xs : List (Ctxt S.C)} {vs : List Int} {ls : List Nat}
    (h : RegsOk ck B xs vs ls) (ins : Instr) (ht : ins.budget pc.params.quadWeight ≤ t)
    (hsc : ∀ k i, ins = .scalarMul k i → pc.build = .release ∧ TableOk pc.asc)
    (hwf : ins.wf xs.length) {l : Nat} (hl : ins.len ls = some l) :
    Yields (ins.run (arithCt S pc) xs) (fun z => Valid ck B z (ins.val vs) ∧ z.length ≤ l) := by
  by_cases hr : tolWeight pc.params.quadWeight ≤ t ∨ ∀ i, ins ≠ .relu i ∨ pc.params.quadWeight ≤ 40
  · obtain ⟨q, hq⟩ : ∃ q, q = if tolWeight pc.params.quadWeight ≤ t then pc.params.quadWeight else 40 := ⟨_, rfl⟩
    have hw : tolWeight q ≤ t := by
      rw [hq]
      split_ifs with h
      · exact h
      · exact h8
    rw [Instr.run_withWeight ins ht hr hq]
    exact Instr.run_valid (hb.withWeight hw) h ins hsc hwf hl
  · push Not at hr
    obtain ⟨hr, i, rfl, h41⟩ := hr
    simp only [Instr.wf] at hwf
    simp only [Instr.len, Option.some.injEq] at hl
    simp only [Instr.val, Instr.run]
    refine Yields.idxBind hwf ?_
    obtain ⟨a1, a2⟩ := h.2.2 i hwf
    simp only [Instr.budget] at ht
    unfold tolWeight at hr
    have h85 : pc.params.quadWeight < 85 := by
      by_contra hc
      rw [if_pos (by omega)] at ht hr
      omega
    refine (ctRelu_direct (hb.withWeight (q := 40) h8) (by omega) h85 a1).mono fun z hz => ⟨?_, ?_⟩
    · exact hz.1
    · have := hz.2; omega

theorem runProg_budget (h8 : 8 ≤ t) (hb : Budget S ck pc B D t) :
    ∀ (p : List Instr) {xs : List (Ctxt S.C)} {vs : List Int} {ls ls' : List Nat},
    (∀ ins ∈ p, ins.budget pc.params.quadWeight ≤ t) →
    (∀ k i, .scalarMul k i ∈ p → pc.build = .release ∧ TableOk pc.asc) → RegsOk ck B xs vs ls →
    wfProg p xs.length → lenProg p ls = some ls' →
    Yields (runProg (arithCt S pc) p xs) (fun zs => RegsOk ck B zs (valProg p vs) ls')
  | [], xs, vs, ls, ls', _, _, h, _, hl => by
    unfold runProg
    simp only [lenProg, Option.some.injEq] at hl
    subst hl
    exact Yields.pure h
  | i :: is, xs, vs, ls, ls', ht, hsc, h, hwf, hl => by
    unfold runProg
    unfold lenProg at hl
    split at hl
    · rename_i l hli
      refine Yields.bind (Instr.run_budget h8 hb h i (ht i (by simp)) (fun k j e => hsc k j (by simp [e])) hwf.1 hli)
        fun z hz => ?_
      exact runProg_budget h8 hb is (fun j hj => ht j (by simp [hj])) (fun k j e => hsc k j (by simp [e]))
        (h.snoc hz.1 hz.2) (by simpa using hwf.2) hl
    · simp at hl

/-- **C85.** A program is evaluated correctly, and its results decrypt to the exact values, if the
noise stays within the budget of each of its operations. -/
theorem C85_program (h8 : 8 ≤ t) (hb : Budget S ck pc B D t) (build : Build) (p : List Instr)
    (ht : ∀ ins ∈ p, ins.budget pc.params.quadWeight ≤ t) (hs : ScalarsOk pc p)
    {xs : List (Ctxt S.C)} {vs : List Int} (h : ValidRegs ck B xs vs) {ls ls' : List Nat}
    (hl : ls.length = xs.length) (hle : ∀ i (h : i < xs.length), xs[i].length ≤ ls.getD i 0)
    (hwf : wfProg p xs.length) (hlen : lenProg p ls = some ls') :
    Yields (runProg (arithCt S pc) p xs) (fun zs => ValidRegs ck B zs (valProg p vs) ∧
      ∀ i (hi : i < zs.length), zs[i].length ≤ ls'.getD i 0 ∧
        (zs[i].length ≤ 63 → Returns (parmDecrypt ck build zs[i]) ((valProg p vs).getD i 0) 0)) := by
  refine (runProg_budget h8 hb p ht hs.use (h.regsOk hl hle) hwf hlen).mono ?_
  rintro zs ⟨h1, h2, h3⟩
  exact ⟨⟨h1, fun i hi => (h3 i hi).1⟩, fun i hi => ⟨(h3 i hi).2, fun h63 =>
    (h3 i hi).1.decrypt (hb.withWeight (q := 40) h8) build h63⟩⟩

end

/-! ### The budgets cannot be lowered -/

/-- no execution returns `a` -/
def Never {α : Type} (m : M α) (a : α) : Prop := ∀ s s' : St, m s ≠ .ok (a, s')

theorem Settled.never {α : Type} {m : M α} (h : Settled m) {a : α} (hs : inOrder m ≠ some a) : Never m a := by
  intro s s' e
  rcases h with ⟨b, n, h⟩ | h
  · obtain ⟨r, rp, _, hr⟩ := h s
    rw [hr] at e
    obtain ⟨r', rp', _, hr'⟩ := h (St.init Sched.seq)
    apply hs
    unfold inOrder
    rw [hr']
    cases e
    rfl
  · obtain ⟨f, hf⟩ := h s
    rw [hf] at e
    cases e

namespace Tight

/-- the cloud with the shipped table of chains -/
def shipped (q : Nat) : Cloud := { cloud q with asc := asc12 }

theorem agree' (S : Scheme) (q q' : Nat) : CloudAgree S (shipped q) (shipped q') := ⟨rfl, fun _ _ => rfl⟩

theorem budget (t q : Nat) (h0 : 0 < t) (h : t ≤ 15) :
    Budget (scheme (noise t) (drift t)) (ck (noise t) (drift t)) (shipped q) (noise t) (drift t) (t - 1) := by
  obtain ⟨h1, h2, h3⟩ := drift_bounds t
  have hn : 0 < noise t := Nat.div_pos (by omega) h0
  refine ⟨rfl, rfl, rfl, ⟨5, by norm_num, by norm_num, rfl⟩, sound _ _ h1 h2 _, ?_⟩
  obtain ⟨k, rfl⟩ : ∃ k, t = k + 1 := ⟨t - 1, by omega⟩
  rw [Nat.add_mul] at h3
  simp only [Nat.add_sub_cancel]
  omega

theorem valid_opp {t : Nat} {x : Ctxt (scheme (noise t) (drift t)).C} {v : Int}
    (h : Valid (ck (noise t) (drift t)) (noise t) x v) :
    Valid (ck (noise t) (drift t)) (noise t) (ctOpp (scheme (noise t) (drift t)) x) (-v) := by
  obtain ⟨d, hd, rfl⟩ := h
  obtain ⟨h1, h2, _⟩ := drift_bounds t
  refine ⟨fun i => - d i, ?_, ?_⟩
  · intro i hi
    have hi' : i < x.length := by simpa [ctOpp, oppositeImpl] using hi
    have := hd i hi'
    refine ⟨?_, this.2.opp⟩
    simp only [ctOpp, oppositeImpl, List.getElem_map]
    have h2 := (wordEnc_iff.1 this.1).opp (sound _ _ h1 h2 0)
    rw [wordEnc_iff, show 2 * -d i = -(2 * d i) by ring]
    exact h2
  · simp only [ctOpp, oppositeImpl, List.length_map]
    exact valueN_neg d _

/-- two encrypted vectors and, with noise in the other direction, the opposite of the second -/
def inputs (t : Nat) (x y : List Int) : List (Ctxt (scheme (noise t) (drift t)).C) :=
  [enc (noise t) (drift t) x, enc (noise t) (drift t) y, ctOpp _ (enc (noise t) (drift t) y)]

theorem regs (t : Nat) (x y : List Int) (hx : ∀ d ∈ x, IsDigit d) (hy : ∀ d ∈ y, IsDigit d) :
    ValidRegs (ck (noise t) (drift t)) (noise t) (inputs t x y) [value x, value y, - value y] := by
  obtain ⟨h1, h2, _⟩ := drift_bounds t
  refine ⟨rfl, fun i hi => ?_⟩
  match i, hi with
  | 0, _ => exact valid_enc _ _ h1 h2 x hx
  | 1, _ => exact valid_enc _ _ h1 h2 y hy
  | 2, _ => exact valid_opp (valid_enc _ _ h1 h2 y hy)

/-- an instruction on the inputs, then the decryption -/
def result (t q : Nat) (ins : Instr) (x y : List Int) : M Int := do
  let z ← ins.run (arithCt (scheme (noise t) (drift t)) (shipped q)) (inputs t x y)
  parmDecrypt (ck (noise t) (drift t)) (shipped q).build z

/-- the witness from one run in the order of the source -/
theorem least {t q : Nat} {ins : Instr} (h0 : 0 < t) (h15 : t ≤ 15) (ht : ins.budget q = t) (x y : List Int)
    (hx : ∀ d ∈ x, IsDigit d) (hy : ∀ d ∈ y, IsDigit d) (hwf : ins.wf 3)
    (hl : ∃ ls, lenProg [ins] [x.length, y.length, y.length] = some ls)
    (h : Never (result t q ins x y) (ins.val [value x, value y, - value y])) :
    ∃ (S : Scheme) (ck : ClientKey S) (pc : Cloud) (B D : Nat) (xs : List (Ctxt S.C)) (vs : List Int),
    Budget S ck pc B D (ins.budget q - 1) ∧ pc.params = { Params.M4C0 with quadWeight := q } ∧ ScalarsOk pc [ins] ∧
    ValidRegs ck B xs vs ∧ wfProg [ins] xs.length ∧ (∃ ls, lenProg [ins] (xs.map List.length) = some ls) ∧
    Never (do let z ← ins.run (arithCt S pc) xs; parmDecrypt ck pc.build z) (ins.val vs) := by
  refine ⟨_, _, _, _, _, _, _, by rw [ht]; exact budget t q h0 h15, rfl, Or.inr ⟨rfl, rfl⟩, regs t x y hx hy, ⟨hwf, trivial⟩,
    ?_, h⟩
  simpa [inputs, enc, ctOpp, oppositeImpl] using hl

theorem result_add (t q : Nat) (x y : List Int) : Settled (result t q (.add 0 1) x y) ∧
    result t q (.add 0 1) x y = result t 40 (.add 0 1) x y := by
  refine ⟨((schemeRel_eq _).ctAdd _ (CRel.refl _) (CRel.refl _)).left.bind fun r => settled_decrypt _ _ _, ?_⟩
  unfold result Instr.run arithCt ascArith
  simp only [(agree' _ q 40).add]
  rfl

theorem result_sub (t q : Nat) (x y : List Int) : Settled (result t q (.sub 0 2) x y) ∧
    result t q (.sub 0 2) x y = result t 40 (.sub 0 2) x y := by
  refine ⟨((schemeRel_eq _).ctSub _ (CRel.refl _) (CRel.refl _)).left.bind fun r => settled_decrypt _ _ _, ?_⟩
  unfold result Instr.run arithCt ascArith
  simp only [(agree' _ q 40).sub]
  rfl

theorem result_mul (t q : Nat) (x y : List Int) : Settled (result t q (.mul 0 1) x y) ∧
    result t q (.mul 0 1) x y = result t 40 (.mul 0 1) x y := by
  refine ⟨((schemeRel_eq _).ctMul _ (CRel.refl _) (CRel.refl _)).left.bind fun r => settled_decrypt _ _ _, ?_⟩
  unfold result Instr.run arithCt ascArith
  simp only [(agree' _ q 40).mul]
  rfl

theorem result_squ (t q : Nat) (x y : List Int) : Settled (result t q (.squ 0) x y) ∧
    result t q (.squ 0) x y = result t 40 (.squ 0) x y := by
  refine ⟨((schemeRel_eq _).ctSqu _ (CRel.refl _)).left.bind fun r => settled_decrypt _ _ _, ?_⟩
  unfold result Instr.run arithCt ascArith
  simp only [(agree' _ q 40).squ]
  rfl

theorem result_scalarMul (t q : Nat) (x y : List Int) : Settled (result t q (.scalarMul 3 0) x y) ∧
    result t q (.scalarMul 3 0) x y = result t 40 (.scalarMul 3 0) x y := by
  refine ⟨((schemeRel_eq _).ctScalarMul _ (CRel.refl _) 3).left.bind fun r => settled_decrypt _ _ _, ?_⟩
  unfold result Instr.run arithCt ascArith
  simp only [(agree' _ q 40).scalarMul rfl rfl]
  rfl

theorem result_sgn (t q q' : Nat) (h : q ≥ 85 ↔ q' ≥ 85) (x y : List Int) : Settled (result t q (.sgn 0) x y) ∧
    result t q (.sgn 0) x y = result t q' (.sgn 0) x y := by
  refine ⟨((schemeRel_eq _).ctSgn _ (CRel.refl _)).left.bind fun r => settled_decrypt _ _ _, ?_⟩
  unfold result Instr.run arithCt ascArith
  simp only [(agree' _ q q').sgn_iff h]
  rfl

theorem result_roundAt (t q q' : Nat) (h : q ≥ 85 ↔ q' ≥ 85) (x y : List Int) :
    Settled (result t q (.roundAt 0 5) x y) ∧ result t q (.roundAt 0 5) x y = result t q' (.roundAt 0 5) x y := by
  refine ⟨((schemeRel_eq _).ctRoundAt _ (CRel.refl _) 5).left.bind fun r => settled_decrypt _ _ _, ?_⟩
  unfold result Instr.run arithCt ascArith
  simp only [(agree' _ q q').roundAt_iff h]
  rfl

theorem result_max (t q q' : Nat) (h : q ≥ 85 ↔ q' ≥ 85) (h' : q ≥ 41 ↔ q' ≥ 41) (x y : List Int) :
    Settled (result t q (.max 0 1) x y) ∧ result t q (.max 0 1) x y = result t q' (.max 0 1) x y := by
  refine ⟨((schemeRel_eq _).ctMax _ (CRel.refl _) (CRel.refl _)).left.bind fun r => settled_decrypt _ _ _, ?_⟩
  unfold result Instr.run arithCt ascArith
  simp only [(agree' _ q q').max_iff h h']
  rfl

theorem result_relu (t q q' : Nat) (h : q ≥ 85 ↔ q' ≥ 85) (h' : q ≥ 41 ↔ q' ≥ 41) (x y : List Int) :
    Settled (result t q (.relu 2) x y) ∧ result t q (.relu 2) x y = result t q' (.relu 2) x y := by
  refine ⟨((schemeRel_eq _).ctRelu _ (CRel.refl _)).left.bind fun r => settled_decrypt _ _ _, ?_⟩
  unfold result Instr.run arithCt ascArith
  simp only [(agree' _ q q').relu_iff h h']
  rfl

theorem never {t q q' : Nat} {ins : Instr} {x y : List Int} {v : Int}
    (h : Settled (result t q ins x y) ∧ result t q ins x y = result t q' ins x y)
    (hv : inOrder (result t q' ins x y) ≠ some v) : Never (result t q ins x y) v := by
  rw [← h.2] at hv
  exact h.1.never hv

end Tight

/-- **C85.** The budgets are exact for sums, differences, products, squares, multiplications by 3, signs, roundings,
maxima and ReLU, with every `quad_weight`: with one fresh noise less, and all else as `C85_program` asks for, some conforming scheme
gives in no execution the right result on some valid operands. -/
theorem C85_least (q : Nat) (ins : Instr)
    (hi : ins ∈ [.add 0 1, .sub 0 2, .mul 0 1, .squ 0, .scalarMul 3 0, .sgn 0, .roundAt 0 5, .max 0 1, .relu 2]) :
    ∃ (S : Scheme) (ck : ClientKey S) (pc : Cloud) (B D : Nat) (xs : List (Ctxt S.C)) (vs : List Int),
    Budget S ck pc B D (ins.budget q - 1) ∧ pc.params = { Params.M4C0 with quadWeight := q } ∧ ScalarsOk pc [ins] ∧
    ValidRegs ck B xs vs ∧ wfProg [ins] xs.length ∧ (∃ ls, lenProg [ins] (xs.map List.length) = some ls) ∧
    Never (do let z ← ins.run (arithCt S pc) xs; parmDecrypt ck pc.build z) (ins.val vs) := by
  have digits : ∀ l ∈ [[-1, -1, -1], [-1, 0, 0], [1, 1, 1], [-1, 0, -1], [0, 0, 0, 0], [-1, 0, 0, 0, -1], [0, -1, -1],
      [-1], [1], [-1, 0, 0, 0], [-1, -1, 0, -1],
      [1, 1, -1, -1, 0, 0, 1, 1, -1, -1, -1, 0, 0, 1]], ∀ d ∈ l, IsDigit d := by unfold IsDigit; decide
  simp only [List.mem_cons, List.not_mem_nil, or_false] at hi
  rcases hi with rfl | rfl | rfl | rfl | rfl | rfl | rfl | rfl | rfl
  · exact Tight.least (t := 8) (by norm_num) (by norm_num) rfl [-1, -1, -1] [-1, 0, 0] (digits _ (by simp))
      (digits _ (by simp)) (by decide) ⟨_, rfl⟩ (Tight.never (Tight.result_add 8 q _ _) (by decide +kernel))
  · exact Tight.least (t := 8) (by norm_num) (by norm_num) rfl [-1, -1, -1] [-1, 0, 0] (digits _ (by simp))
      (digits _ (by simp)) (by decide) ⟨_, rfl⟩ (Tight.never (Tight.result_sub 8 q _ _) (by decide +kernel))
  · exact Tight.least (t := 8) (by norm_num) (by norm_num) rfl [1, 1, 1] [-1, 0, -1] (digits _ (by simp))
      (digits _ (by simp)) (by decide) ⟨_, rfl⟩ (Tight.never (Tight.result_mul 8 q _ _) (by decide +kernel))
  · exact Tight.least (t := 8) (by norm_num) (by norm_num) rfl [1, 1, -1, -1, 0, 0, 1, 1, -1, -1, -1, 0, 0, 1] [1]
      (digits _ (by simp)) (digits _ (by simp)) (by decide) ⟨_, rfl⟩
      (Tight.never (Tight.result_squ 8 q _ _) (by decide +kernel))
  · exact Tight.least (t := 8) (by norm_num) (by norm_num) rfl [-1, -1, 0, -1] [1] (digits _ (by simp))
      (digits _ (by simp)) (by decide) ⟨_, rfl⟩ (Tight.never (Tight.result_scalarMul 8 q _ _) (by decide +kernel))
  · by_cases h : 85 ≤ q
    · exact Tight.least (t := 15) (by norm_num) (by norm_num) (if_pos h) [0, 0, 0, 0] [1] (digits _ (by simp))
        (digits _ (by simp)) (by decide) ⟨_, rfl⟩ (Tight.never (Tight.result_sgn 15 q 100 (by omega) _ _) (by decide +kernel))
    · exact Tight.least (t := 8) (by norm_num) (by norm_num) (if_neg h) [0, 0, 0, 0] [1] (digits _ (by simp))
        (digits _ (by simp)) (by decide) ⟨_, rfl⟩ (Tight.never (Tight.result_sgn 8 q 40 (by omega) _ _) (by decide +kernel))
  · by_cases h : 85 ≤ q
    · exact Tight.least (t := 15) (by norm_num) (by norm_num) (if_pos h) [-1, 0, 0, 0, -1] [1] (digits _ (by simp))
        (digits _ (by simp)) (by decide) ⟨_, rfl⟩ (Tight.never (Tight.result_roundAt 15 q 100 (by omega) _ _) (by decide +kernel))
    · exact Tight.least (t := 8) (by norm_num) (by norm_num) (if_neg h) [-1, 0, 0, 0, -1] [1] (digits _ (by simp))
        (digits _ (by simp)) (by decide) ⟨_, rfl⟩ (Tight.never (Tight.result_roundAt 8 q 40 (by omega) _ _) (by decide +kernel))
  · by_cases h : 85 ≤ q
    · exact Tight.least (t := 15) (by norm_num) (by norm_num) (if_pos h) [-1, 0, 0, 0] [0, 0, 0, 0] (digits _ (by simp))
        (digits _ (by simp)) (by decide) ⟨_, rfl⟩ (Tight.never (Tight.result_max 15 q 100 (by omega) (by omega) _ _) (by decide +kernel))
    · by_cases h' : 41 ≤ q
      · exact Tight.least (t := 9) (by norm_num) (by norm_num) ((if_neg h).trans (if_pos h')) [-1] [1] (digits _ (by simp))
          (digits _ (by simp)) (by decide) ⟨_, rfl⟩ (Tight.never (Tight.result_max 9 q 84 (by omega) (by omega) _ _) (by decide +kernel))
      · exact Tight.least (t := 8) (by norm_num) (by norm_num) ((if_neg h).trans (if_neg h')) [-1, -1, -1] [0, -1, -1] (digits _ (by simp))
          (digits _ (by simp)) (by decide) ⟨_, rfl⟩ (Tight.never (Tight.result_max 8 q 40 (by omega) (by omega) _ _) (by decide +kernel))
  · by_cases h : 85 ≤ q
    · exact Tight.least (t := 15) (by norm_num) (by norm_num) (if_pos h) [1] [-1, 0, 0, 0] (digits _ (by simp))
        (digits _ (by simp)) (by decide) ⟨_, rfl⟩ (Tight.never (Tight.result_relu 15 q 100 (by omega) (by omega) _ _) (by decide +kernel))
    · by_cases h' : 41 ≤ q
      · exact Tight.least (t := 8) (by norm_num) (by norm_num) (if_neg h) [1] [-1, 0, 0, 0] (digits _ (by simp))
          (digits _ (by simp)) (by decide) ⟨_, rfl⟩ (Tight.never (Tight.result_relu 8 q 84 (by omega) (by omega) _ _) (by decide +kernel))
      · exact Tight.least (t := 8) (by norm_num) (by norm_num) (if_neg h) [1] [-1, 0, 0, 0] (digits _ (by simp))
          (digits _ (by simp)) (by decide) ⟨_, rfl⟩ (Tight.never (Tight.result_relu 8 q 40 (by omega) (by omega) _ _) (by decide +kernel))

/-- Case: `quad_weight` 100 and noise that is too high for the sign, where `(7 + -5)² · 7` is still right. -/
example : ¬ Setting (Tight.scheme (Tight.noise 9) (Tight.drift 9)) (Tight.ck (Tight.noise 9) (Tight.drift 9))
      (Tight.shipped 100) (Tight.noise 9) (Tight.drift 9) ∧
    Yields (runProg (arithCt (Tight.scheme (Tight.noise 9) (Tight.drift 9)) (Tight.shipped 100))
        [.add 0 1, .squ 3, .mul 4 0]
        (Tight.inputs 9 [1, 1, 1] [-1, 0, -1]))
      (fun zs => ValidRegs (Tight.ck (Tight.noise 9) (Tight.drift 9)) (Tight.noise 9) zs [7, -5, 5, 2, 4, 28]) := by
  refine ⟨fun st => absurd st.tolerance (by decide), ?_⟩
  exact (C85_program (le_refl 8) (Tight.budget 9 100 (by norm_num) (by norm_num)) .release _ (by decide)
    (Or.inl (by intro k i h; simp at h)) (Tight.regs 9 [1, 1, 1] [-1, 0, -1] (by unfold IsDigit; decide) (by unfold IsDigit; decide))
    (ls := [3, 3, 3]) rfl (fun i hi => by
      match i, hi with
      | 0, _ => exact le_refl 3
      | 1, _ => exact le_refl 3
      | 2, _ => exact le_refl 3) (by decide) rfl).mono fun zs h => h.1

/-- Case: the sign with the shipped `quad_weight` 100 does need fifteen times the fresh noise. -/
example : ∃ (S : Scheme) (ck : ClientKey S) (pc : Cloud) (B D : Nat) (xs : List (Ctxt S.C)) (vs : List Int),
    Budget S ck pc B D 14 ∧ pc.params = Params.M4C0 ∧ ValidRegs ck B xs vs ∧
    Never (do let z ← (Instr.sgn 0).run (arithCt S pc) xs; parmDecrypt ck pc.build z) ((Instr.sgn 0).val vs) := by
  obtain ⟨S, ck, pc, B, D, xs, vs, h1, h2, _, h3, _, _, h4⟩ := C85_least 100 (.sgn 0) (by decide)
  exact ⟨S, ck, pc, B, D, xs, vs, h1, h2, h3, h4⟩

end Parm
