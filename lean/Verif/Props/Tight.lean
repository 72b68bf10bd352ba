import Verif.Proof.TightInstance
import Verif.Proof.Agree
import Verif.Props.Noisy

/-!
# The noise budget of C38 cannot be lowered

The correctness theorems assume `tolWeight · B + D < 2^58`.  Here all of the setting holds but for this inequality, where
both sides are equal, and one operation on valid inputs goes wrong, for every `quad_weight`.
-/

namespace Parm

/-- the setting of all correctness theorems, except that the noise just misses the tolerance -/
structure Borderline (S : Scheme) (ck : ClientKey S) (pc : Cloud) (B D : Nat) : Prop where
  msgMod : pc.msgMod = 32
  carryMod : pc.carryMod = 1
  bitPrecision : pc.params.bitPrecision = 5
  polySize : ∃ logN, 5 ≤ logN ∧ logN ≤ 63 ∧ pc.polySize = 2 ^ logN
  sound : Sound S ck pc.polySize B D (tolWeight pc.params.quadWeight * B)
  edge : tolWeight pc.params.quadWeight * B + D = 2 ^ 58

/-- the setting and the borderline exclude each other -/
theorem Borderline.not_setting {S : Scheme} {ck : ClientKey S} {pc : Cloud} {B D : Nat}
    (h : Borderline S ck pc B D) : ¬ Setting S ck pc B D := fun st => by
  have := st.tolerance
  have := h.edge
  omega

theorem Settled.allFail {α : Type} {m : M α} (h : Settled m) (hs : inOrder m = none) : AllFail m := by
  unfold inOrder at hs
  rcases h with ⟨b, n, h⟩ | h
  · obtain ⟨r, rp, hx, hr⟩ := h (St.init Sched.seq)
    rw [hr] at hs
    cases hs
  · exact h

namespace Tight

/-- noise and drift with `t · B + D = 2^58` and `D` not below half of the grid -/
def noise (t : Nat) : Nat := 2 ^ 57 / t

def drift (t : Nat) : Nat := 2 ^ 58 - t * noise t

theorem drift_bounds (t : Nat) : 2 ^ 57 ≤ drift t ∧ drift t ≤ 2 ^ 58 ∧ t * noise t + drift t = 2 ^ 58 := by
  have h : t * noise t ≤ 2 ^ 57 := Nat.mul_div_le _ _
  unfold drift
  omega

theorem borderline (q : Nat) : Borderline (scheme (noise (tolWeight q)) (drift (tolWeight q)))
    (ck (noise (tolWeight q)) (drift (tolWeight q))) (cloud q) (noise (tolWeight q)) (drift (tolWeight q)) := by
  obtain ⟨h1, h2, h3⟩ := drift_bounds (tolWeight q)
  exact ⟨rfl, rfl, rfl, ⟨5, by norm_num, by norm_num, rfl⟩, sound _ _ h1 h2 _, h3⟩

/-- an operation on encrypted vectors, then the decryption -/
def attempt (t q : Nat) (f : (T : Type) → Arith T → T → T → M T) (x y : List Int) : M Int := do
  let r ← f _ (arithCt (scheme (noise t) (drift t)) (cloud q)) (enc (noise t) (drift t) x) (enc (noise t) (drift t) y)
  parmDecrypt (ck (noise t) (drift t)) (cloud q).build r

theorem valid (q : Nat) (l : List Int) (h : ∀ d ∈ l, IsDigit d) :
    Valid (ck (noise (tolWeight q)) (drift (tolWeight q))) (noise (tolWeight q))
      (enc (noise (tolWeight q)) (drift (tolWeight q)) l) (value l) := by
  obtain ⟨h1, h2, _⟩ := drift_bounds (tolWeight q)
  exact valid_enc _ _ h1 h2 l h

end Tight

/-! `quad_weight` only matters through the two comparisons of the code -/

section
variable {S : Scheme} {pc pc' : Cloud} (h : CloudAgree S pc pc')
  (h85 : pc.params.quadWeight ≥ 85 ↔ pc'.params.quadWeight ≥ 85)
include h h85

theorem CloudAgree.sgnRecursionRaw_iff : ∀ (fuel : Nat) (x : Ctxt S.C) (first : Bool),
    Parm.sgnRecursionRaw S pc fuel x first = Parm.sgnRecursionRaw S pc' fuel x first := by
  intro fuel
  have h1 : sgnFirst S pc = sgnFirst S pc' := by
    funext x j b
    unfold sgnFirst pbsF1
    simp only [h.uint, h85]
  have h2 : sgnNext S pc = sgnNext S pc' := by
    funext x j b
    unfold sgnNext pbsF1
    simp only [h.uint, h.trivCt]
  induction fuel with
  | zero =>
    intro x first
    unfold Parm.sgnRecursionRaw
    rw [h.trivCt]
  | succ fuel ih =>
    intro x first
    unfold Parm.sgnRecursionRaw
    simp only [h.trivCt, h1, h2, ih]

theorem CloudAgree.sgn_iff (x : Ctxt S.C) : ctSgn S pc x = ctSgn S pc' x := by
  unfold ctSgn sgnImpl pbsF1
  simp only [h.sgnRecursionRaw_iff h85, h.uint]

theorem CloudAgree.max_iff (h41 : pc.params.quadWeight ≥ 41 ↔ pc'.params.quadWeight ≥ 41) (x y : Ctxt S.C) :
    ctMax S pc x y = ctMax S pc' x y := by
  unfold ctMax Parm.maxImpl pbsNonneg pbsF1 pbsMax
  simp only [h.sub, h.sgnRecursionRaw_iff h85, h.lut, h.triv, h.trivCt, h41, h.uint]

end

theorem Tight.agree (S : Scheme) (q q' : Nat) : CloudAgree S (Tight.cloud q) (Tight.cloud q') := ⟨rfl, fun _ _ => rfl⟩

/-- **C38**, every `quad_weight` up to 40: the factor 8 is needed.  At the borderline the sum of encryptions of -7 and -1 is
not decrypted by any execution. -/
theorem C38_tight_add (q : Nat) (hq : q ≤ 40) :
    ∃ (S : Scheme) (ck : ClientKey S) (pc : Cloud) (B D : Nat) (x y : Ctxt S.C),
    Borderline S ck pc B D ∧ pc.params = { Params.M4C0 with quadWeight := q } ∧
    7 * B + D < 2 ^ 58 ∧ 8 * B + D = 2 ^ 58 ∧ Valid ck B x (-7) ∧ Valid ck B y (-1) ∧
    AllFail (do let r ← ctAdd S pc x y; parmDecrypt ck pc.build r) := by
  have ht : tolWeight q = 8 := by unfold tolWeight; rw [if_neg (by omega), if_neg (by omega)]
  have hb := Tight.borderline q
  have v1 := Tight.valid q [-1, -1, -1] (by unfold IsDigit; decide)
  have v2 := Tight.valid q [-1, 0, 0] (by unfold IsDigit; decide)
  rw [ht] at hb v1 v2
  refine ⟨_, _, _, _, _, _, _, hb, rfl, by decide, (Tight.drift_bounds 8).2.2, v1, v2, ?_⟩
  rw [(Tight.agree _ q 40).add]
  have h : inOrder (Tight.attempt 8 40 (fun _ A x y => A.add x y) [-1, -1, -1] [-1, 0, 0]) = none := by
    decide +kernel
  exact Settled.allFail (((schemeRel_eq _).ctAdd _ (CRel.refl _) (CRel.refl _)).left.bind
    fun r => settled_decrypt _ _ _) h

/-- **C38**, every `quad_weight` from 41 to 84: the factor 9 is needed.  At the borderline the maximum of encryptions of -1
and 1 decrypts to -1. -/
theorem C38_tight_max (q : Nat) (h41 : 41 ≤ q) (h84 : q ≤ 84) :
    ∃ (S : Scheme) (ck : ClientKey S) (pc : Cloud) (B D : Nat) (x y : Ctxt S.C),
    Borderline S ck pc B D ∧ pc.params = { Params.M4C0 with quadWeight := q } ∧
    8 * B + D < 2 ^ 58 ∧ 9 * B + D = 2 ^ 58 ∧ Valid ck B x (-1) ∧ Valid ck B y 1 ∧
    ∃ n, Returns (do let r ← ctMax S pc x y; parmDecrypt ck pc.build r) (-1) n := by
  have ht : tolWeight q = 9 := by unfold tolWeight; rw [if_neg (by omega), if_pos (by omega)]
  have hb := Tight.borderline q
  have v1 := Tight.valid q [-1] (by unfold IsDigit; decide)
  have v2 := Tight.valid q [1] (by unfold IsDigit; decide)
  rw [ht] at hb v1 v2
  refine ⟨_, _, _, _, _, _, _, hb, rfl, by decide, (Tight.drift_bounds 9).2.2, v1, v2, ?_⟩
  rw [(Tight.agree _ q 84).max_iff (by show q ≥ 85 ↔ 84 ≥ 85; omega) (by show q ≥ 41 ↔ 84 ≥ 41; omega)]
  have h : inOrder (Tight.attempt 9 84 (fun _ A x y => A.max x y) [-1] [1]) = some (-1) := by
    decide +kernel
  exact Settled.returns (((schemeRel_eq _).ctMax _ (CRel.refl _) (CRel.refl _)).left.bind
    fun r => settled_decrypt _ _ _) h

/-- **C38**, every `quad_weight` from 85, as the shipped 100: the factor 15 is needed.  At the borderline the sign of an
encryption of 0 decrypts to 1, and that of an encryption of 15 decrypts to 0. -/
theorem C38_tight_sgn (q : Nat) (hq : 85 ≤ q) :
    ∃ (S : Scheme) (ck : ClientKey S) (pc : Cloud) (B D : Nat) (x y : Ctxt S.C),
    Borderline S ck pc B D ∧ pc.params = { Params.M4C0 with quadWeight := q } ∧
    14 * B + D < 2 ^ 58 ∧ 15 * B + D = 2 ^ 58 ∧ Valid ck B x 0 ∧ Valid ck B y 15 ∧
    (∃ n, Returns (do let r ← ctSgn S pc x; parmDecrypt ck pc.build r) 1 n) ∧
    (∃ n, Returns (do let r ← ctSgn S pc y; parmDecrypt ck pc.build r) 0 n) := by
  have ht : tolWeight q = 15 := by unfold tolWeight; rw [if_pos (by omega)]
  have hb := Tight.borderline q
  have v1 := Tight.valid q [0, 0, 0, 0] (by unfold IsDigit; decide)
  have v2 := Tight.valid q [1, 1, 1, 1] (by unfold IsDigit; decide)
  rw [ht] at hb v1 v2
  have h85 : (Tight.cloud q).params.quadWeight ≥ 85 ↔ (Tight.cloud 100).params.quadWeight ≥ 85 := by
    show q ≥ 85 ↔ 100 ≥ 85
    omega
  refine ⟨_, _, _, _, _, _, _, hb, rfl, by decide, (Tight.drift_bounds 15).2.2, v1, v2, ?_, ?_⟩
  · rw [(Tight.agree _ q 100).sgn_iff h85]
    have h : inOrder (Tight.attempt 15 100 (fun _ A x _ => A.sgn x) [0, 0, 0, 0] []) = some 1 := by
      decide +kernel
    exact Settled.returns (((schemeRel_eq _).ctSgn _ (CRel.refl _)).left.bind fun r => settled_decrypt _ _ _) h
  · rw [(Tight.agree _ q 100).sgn_iff h85]
    have h : inOrder (Tight.attempt 15 100 (fun _ A x _ => A.sgn x) [1, 1, 1, 1] []) = some 0 := by
      decide +kernel
    exact Settled.returns (((schemeRel_eq _).ctSgn _ (CRel.refl _)).left.bind fun r => settled_decrypt _ _ _) h

/-- Case: the shipped parameters, `quad_weight` 100. -/
example : ∃ (S : Scheme) (ck : ClientKey S) (pc : Cloud) (B D : Nat) (x : Ctxt S.C),
    pc.params = Params.M4C0 ∧ 14 * B + D < 2 ^ 58 ∧ Valid ck B x 0 ∧
    ∃ n, Returns (do let r ← ctSgn S pc x; parmDecrypt ck pc.build r) 1 n := by
  obtain ⟨S, ck, pc, B, D, x, _, _, hp, hb, _, hx, _, h, _⟩ := C38_tight_sgn 100 (by norm_num)
  exact ⟨S, ck, pc, B, D, x, hp, hb, hx, h⟩

/-- Case: `quad_weight` 22, the lowest the constructor accepts. -/
example : ∃ (S : Scheme) (ck : ClientKey S) (pc : Cloud) (B D : Nat) (x y : Ctxt S.C),
    pc.params.quadWeight = 22 ∧ 7 * B + D < 2 ^ 58 ∧ Valid ck B x (-7) ∧ Valid ck B y (-1) ∧
    AllFail (do let r ← ctAdd S pc x y; parmDecrypt ck pc.build r) := by
  obtain ⟨S, ck, pc, B, D, x, y, _, hp, hb, _, hx, hy, h⟩ := C38_tight_add 22 (by norm_num)
  exact ⟨S, ck, pc, B, D, x, y, by rw [hp], hb, hx, hy, h⟩

/-- Case: `quad_weight` 41, the lowest with which the maximum saves a bootstrap. -/
example : ∃ (S : Scheme) (ck : ClientKey S) (pc : Cloud) (B D : Nat) (x y : Ctxt S.C),
    pc.params.quadWeight = 41 ∧ 8 * B + D < 2 ^ 58 ∧ Valid ck B x (-1) ∧ Valid ck B y 1 ∧
    ∃ n, Returns (do let r ← ctMax S pc x y; parmDecrypt ck pc.build r) (-1) n := by
  obtain ⟨S, ck, pc, B, D, x, y, _, hp, hb, _, hx, hy, h⟩ := C38_tight_max 41 (by norm_num) (by norm_num)
  exact ⟨S, ck, pc, B, D, x, y, by rw [hp], hb, hx, hy, h⟩

end Parm
