import Verif.Proof.Monad
import Mathlib.Data.BitVec
import Mathlib.Data.Nat.Bitwise
import Mathlib.Tactic.Ring
import Mathlib.Tactic.Linarith
import Mathlib.Tactic.IntervalCases

/-!
# Word-level facts: phases, encodings, linear operations
-/

namespace Parm

theorem ofInt_eq_iff (a b : Int) :
    BitVec.ofInt 64 a = BitVec.ofInt 64 b ↔ ∃ t : Int, a = b + t * 2 ^ 64 := by
  constructor
  · intro h
    have h' := congrArg BitVec.toInt h
    simp only [BitVec.toInt_ofInt] at h'
    have h2 : a % (2 ^ 64 : Nat) = b % (2 ^ 64 : Nat) := by
      rw [← Int.bmod_emod (x := a), h', Int.bmod_emod]
    refine ⟨a / 2 ^ 64 - b / 2 ^ 64, ?_⟩
    have e1 := Int.emod_add_mul_ediv a (2 ^ 64)
    have e2 := Int.emod_add_mul_ediv b (2 ^ 64)
    norm_num at *
    omega
  · rintro ⟨t, rfl⟩
    rw [BitVec.ofInt_add, BitVec.ofInt_mul]
    have : BitVec.ofInt 64 (2 ^ 64) = 0#64 := by decide
    rw [this]; simp

theorem ofInt_add' (a b : Int) : BitVec.ofInt 64 (a + b) = BitVec.ofInt 64 a + BitVec.ofInt 64 b :=
  BitVec.ofInt_add ..

theorem ofInt_mul' (a b : Int) : BitVec.ofInt 64 (a * b) = BitVec.ofInt 64 a * BitVec.ofInt 64 b :=
  BitVec.ofInt_mul ..

theorem ofInt_neg' (a : Int) : BitVec.ofInt 64 (-a) = - BitVec.ofInt 64 a := BitVec.ofInt_neg ..

theorem delta32 : delta 32 = 576460752303423488#64 := by decide

theorem delta32' : delta 32 = BitVec.ofInt 64 (2 ^ 59) := by decide

/-- the word holds `h` half-units (`2^58`), exactly if trivial, with noise at most `k·B`
otherwise -/
def Enc2 {S : Scheme} (ck : ClientKey S) (B : Nat) (w : Word S.C) (h : Int) (k : Nat) : Prop :=
  w.msgMod = 32 ∧
  match w.ct with
  | .triv pt => pt = BitVec.ofInt 64 (h * 2 ^ 58)
  | .ct c => ∃ e : Int, e.natAbs ≤ k * B ∧ ck.phase c = BitVec.ofInt 64 (h * 2 ^ 58 + e)

section
variable {S : Scheme} {ck : ClientKey S} {B : Nat}

theorem wordEnc_iff {w : Word S.C} {m : Int} {k : Nat} :
    WordEnc ck B w m k ↔ Enc2 ck B w (2 * m) k := by
  have : 2 * m * 2 ^ 58 = m * 2 ^ 59 := by ring
  unfold WordEnc Enc2
  rw [this]
  rfl

theorem Enc2.mono {w : Word S.C} {h : Int} {k k' : Nat} (hw : Enc2 ck B w h k) (hk : k ≤ k') :
    Enc2 ck B w h k' := by
  obtain ⟨h1, h2⟩ := hw
  refine ⟨h1, ?_⟩
  split at h2
  · exact h2
  · obtain ⟨e, he, hp⟩ := h2
    exact ⟨e, he.trans (Nat.mul_le_mul_right _ hk), hp⟩

theorem Enc2.congr {w : Word S.C} {h h' : Int} {k : Nat} (hw : Enc2 ck B w h k)
    (t : Int) (ht : h = h' + 64 * t) : Enc2 ck B w h' k := by
  obtain ⟨h1, h2⟩ := hw
  refine ⟨h1, ?_⟩
  split at h2
  · rw [h2, ofInt_eq_iff]
    exact ⟨t, by rw [ht]; ring⟩
  · obtain ⟨e, he, hp⟩ := h2
    refine ⟨e, he, ?_⟩
    rw [hp, ofInt_eq_iff]
    exact ⟨t, by rw [ht]; ring⟩

variable {N D T : Nat} (snd : Sound S ck N B D T)
include snd

theorem Enc2.add {a b : Word S.C} {h h' : Int} {k k' : Nat} (ha : Enc2 ck B a h k)
    (hb : Enc2 ck B b h' k') : Enc2 ck B (Word.add S a b) (h + h') (k + k') := by
  obtain ⟨ac, am⟩ := a
  obtain ⟨bc, bm⟩ := b
  obtain ⟨h1, h2⟩ := ha
  obtain ⟨h3, h4⟩ := hb
  cases ac with
  | ct ca =>
    obtain ⟨e, he, hp⟩ := h2
    cases bc with
    | ct cb =>
      obtain ⟨e', he', hp'⟩ := h4
      refine ⟨h1, e + e', ?_, ?_⟩
      · rw [Nat.add_mul]; omega
      · rw [snd.phase_add, hp, hp', ← ofInt_add']
        congr 1; ring
    | triv pb =>
      refine ⟨h1, e, he.trans (Nat.mul_le_mul_right _ (by omega)), ?_⟩
      rw [snd.phase_addPt, hp, h4, ← ofInt_add']
      congr 1; ring
  | triv pa =>
    cases bc with
    | ct cb =>
      obtain ⟨e', he', hp'⟩ := h4
      refine ⟨h1, e', he'.trans (Nat.mul_le_mul_right _ (by omega)), ?_⟩
      rw [snd.phase_addPt, hp', h2, ← ofInt_add']
      congr 1; ring
    | triv pb =>
      refine ⟨h1, ?_⟩
      show pa + pb = _
      rw [h2, h4, ← ofInt_add']
      congr 1; ring

theorem Enc2.opp {a : Word S.C} {h : Int} {k : Nat} (ha : Enc2 ck B a h k) :
    Enc2 ck B (Word.opp S a) (-h) k := by
  obtain ⟨ac, am⟩ := a
  obtain ⟨h1, h2⟩ := ha
  cases ac with
  | ct ca =>
    obtain ⟨e, he, hp⟩ := h2
    refine ⟨h1, -e, by simpa using he, ?_⟩
    rw [snd.phase_neg, hp, ← ofInt_neg']
    congr 1; ring
  | triv pa =>
    refine ⟨h1, ?_⟩
    show -pa = _
    rw [h2, ← ofInt_neg']
    congr 1; ring

theorem Enc2.sub {a b : Word S.C} {h h' : Int} {k k' : Nat} (ha : Enc2 ck B a h k)
    (hb : Enc2 ck B b h' k') : Enc2 ck B (Word.sub S a b) (h - h') (k + k') := by
  have := ha.add snd (hb.opp snd)
  rwa [← Int.sub_eq_add_neg] at this

omit snd in
theorem wrapI32_of_lt {c : Nat} (hc : c < 2 ^ 31) : wrapI32 (c : Int) = c := by
  unfold wrapI32
  rw [Int.bmod_eq_of_le (by omega) (by omega)]

theorem Enc2.mulConst {a : Word S.C} {h : Int} {k : Nat} (ha : Enc2 ck B a h k) (c : Int)
    (hc : c.natAbs < 2 ^ 31) :
    Enc2 ck B (Word.mulConst S a c) (c * h) (c.natAbs * k) := by
  have key : ∀ n : Nat, n < 2 ^ 31 → Enc2 ck B
      (match a.ct with
        | .ct ca => { a with ct := .ct (S.mulC ca (BitVec.ofInt 64 (wrapI32 n))) }
        | .triv pa => { a with ct := .triv (pa * BitVec.ofInt 64 (wrapI32 n)) } : Word S.C)
      (n * h) (n * k) := by
    intro n hn
    rw [wrapI32_of_lt hn]
    obtain ⟨ac, am⟩ := a
    obtain ⟨h1, h2⟩ := ha
    cases ac with
    | ct ca =>
      obtain ⟨e, he, hp⟩ := h2
      refine ⟨h1, n * e, ?_, ?_⟩
      · rw [Int.natAbs_mul, Int.natAbs_natCast, Nat.mul_assoc]
        exact Nat.mul_le_mul_left _ he
      · rw [snd.phase_mulC, hp, ← ofInt_mul']
        congr 1; ring
    | triv pa =>
      refine ⟨h1, ?_⟩
      show pa * _ = _
      rw [h2, ← ofInt_mul']
      congr 1; ring
  unfold Word.mulConst
  by_cases hneg : c < 0
  · rw [if_pos hneg]
    have := (key c.natAbs hc).opp snd
    have e : -((c.natAbs : Int) * h) = c * h := by
      rw [Int.ofNat_natAbs_of_nonpos (by omega)]; ring
    rw [e] at this
    exact this
  · rw [if_neg hneg]
    have := key c.natAbs hc
    have e : (c.natAbs : Int) * h = c * h := by rw [Int.natAbs_of_nonneg (by omega)]
    rw [e] at this
    exact this

omit snd in
theorem halfToPt32 : halfToPt 32 = BitVec.ofInt 64 (2 ^ 58) := by decide

theorem Enc2.addHalf {a : Word S.C} {h : Int} {k : Nat} (ha : Enc2 ck B a h k) :
    Enc2 ck B (Word.addHalf S a) (h + 1) k := by
  obtain ⟨ac, am⟩ := a
  obtain ⟨h1, h2⟩ := ha
  simp only at h1
  subst h1
  cases ac with
  | ct ca =>
    obtain ⟨e, he, hp⟩ := h2
    refine ⟨rfl, e, he, ?_⟩
    rw [snd.phase_addPt, hp, halfToPt32, ← ofInt_add']
    congr 1; ring
  | triv pa =>
    refine ⟨rfl, ?_⟩
    show pa + _ = _
    rw [h2, halfToPt32, ← ofInt_add']
    congr 1; ring

end

theorem miToPt32 (m : Int) : miToPt 32 m = BitVec.ofInt 64 (m * 2 ^ 59) := by
  unfold miToPt miToMu
  rw [delta32', ← ofInt_mul', ofInt_eq_iff]
  refine ⟨-(m / 32), ?_⟩
  have := Int.emod_add_mul_ediv m 32
  norm_num
  omega

theorem Enc2.triv {S : Scheme} {ck : ClientKey S} {B : Nat} {pc : Cloud} (hpc : pc.msgMod = 32)
    (m : Int) (k : Nat) : Enc2 ck B (encryptWordTriv S.C pc m) (2 * m) k := by
  refine ⟨hpc, ?_⟩
  show miToPt pc.msgMod m = _
  rw [hpc, miToPt32]
  congr 1; ring

/-! ### Decryption -/

theorem ptToMu32_nat (p : BitVec 64) : ptToMu 32 p = (p.toNat / 2 ^ 58 + 1) / 2 % 32 := by
  have hp := p.isLt
  have h1 : (p &&& 288230376151711744#64).toNat = p.toNat / 2 ^ 58 % 2 * 2 ^ 58 := by
    rw [BitVec.toNat_and]
    have : (288230376151711744#64).toNat = 2 ^ 58 := by decide
    rw [this, Nat.and_two_pow, Nat.testBit_eq_decide_div_mod_eq]
    rcases Nat.mod_two_eq_zero_or_one (p.toNat / 2 ^ 58) with h | h <;> rw [h] <;> rfl
  unfold ptToMu
  rw [delta32]
  have e1 : (576460752303423488#64 >>> 1) = 288230376151711744#64 := by decide
  have e2 : (576460752303423488#64).toNat = 2 ^ 59 := by decide
  simp only [e1, BitVec.toNat_udiv, BitVec.toNat_add, BitVec.toNat_shiftLeft, h1, e2,
    Nat.shiftLeft_eq]
  have hq : p.toNat = p.toNat / 2 ^ 58 * 2 ^ 58 + p.toNat % 2 ^ 58 := by omega
  norm_num at *
  rcases Nat.mod_two_eq_zero_or_one (p.toNat / 288230376151711744) with h | h <;> rw [h] <;> omega

/-- rounding to the nearest message -/
theorem ptToMu32 (m e : Int) (he : e.natAbs < 2 ^ 58) :
    (ptToMu 32 (BitVec.ofInt 64 (m * 2 ^ 59 + e)) : Int) = m % 32 := by
  obtain ⟨p, hp⟩ : ∃ p : BitVec 64, p = BitVec.ofInt 64 (m * 2 ^ 59 + e) := ⟨_, rfl⟩
  rw [← hp, ptToMu32_nat]
  have h1 : (p.toNat : Int) = (m * 2 ^ 59 + e) % 2 ^ 64 := by
    rw [hp, BitVec.toNat_ofInt, Int.toNat_of_nonneg (Int.emod_nonneg _ (by norm_num))]
    norm_num
  push_cast
  rw [h1]
  norm_num at *
  omega

end Parm
