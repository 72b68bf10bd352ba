import Verif.Proof.NafDebug
import Verif.Props.KtScript
import Verif.Props.Builds
import Verif.Props.Demos

/-!
# Property C50: for which scalars a debug build panics

The digits of the recoding say so: two digits -1 with a 1 above them (below the bit length of the number) and none between them.
-/

namespace Parm
open KtScript

/-- **C50.** Let `ds` be the recoding of a `u32` in the release build.  A debug build panics by overflow if among the digits up
to the leading bit of `k` there are two -1 without a 1 between them and with a 1 above them, and returns `ds` otherwise. -/
theorem C50_recoding_iff {k : Nat} (hk : k < 2 ^ 32) {ds : List Int} (hd : Returns (koyamaTsuruokaVec .release k) ds 0) :
    (Borrows ds (Nat.log2 k + 1) → Fails (koyamaTsuruokaVec .debug k) (.panic .overflow)) ∧
    (¬ Borrows ds (Nat.log2 k + 1) → Returns (koyamaTsuruokaVec .debug k) ds 0) := by
  have hds : ds = kt Nat.log2 k := (hd.unique (C72_agree (lg := Nat.log2) hk rfl).1).1
  by_cases h1 : k ≤ 1
  · have hlog : Nat.log2 k = 0 := by
      interval_cases k <;> rfl
    rw [hlog]
    refine ⟨?_, fun _ => ?_⟩
    · rintro ⟨a, b, c, h1, h2, h3, -⟩
      omega
    · rw [hds]
      interval_cases k
      · exact Returns.pure _
      · exact Returns.pure _
  · rw [hds, koyamaTsuruokaVec_eq .debug (by omega) (by omega), bitLen32_log2 (by omega) hk]
    have h32 := (bitLen32_spec (k := k) (by omega) hk).2.2.2
    rw [bitLen32_log2 (by omega) hk] at h32
    exact core_debug (by omega) (by omega) rfl h32

/-- The windows of the scalar are computed in a debug build for the same numbers. -/
theorem windShifts_debug_iff {k : Nat} (hk : k < 2 ^ 31) (h0 : 1 < k) {ds : List Int}
    (hd : Returns (koyamaTsuruokaVec .release k) ds 0) :
    (Borrows ds (Nat.log2 k + 1) → Fails (windShifts .debug k ascBitlen) (.panic .overflow)) ∧
    (¬ Borrows ds (Nat.log2 k + 1) → ∃ ws, Returns (windShifts .debug k ascBitlen) ws 0) := by
  obtain ⟨r1, r2⟩ := C50_recoding_iff (by omega) hd
  refine ⟨fun h => ?_, fun h => ?_⟩
  · unfold windShifts
    exact Fails.bind (r1 h)
  · obtain ⟨ds', d1, d2, d3, d4, -⟩ := koyamaTsuruoka_spec (k := k) (by omega) (by omega)
    rw [← (hd.unique d1).1] at d2 d4
    have hpos : 0 < ds.length := by
      cases ds with
      | nil => simp at d4
      | cons => simp
    obtain ⟨ws, w1, -⟩ := windShiftsLoop_spec .debug (bitlen := ascBitlen) (by decide) (by decide) d2 d4 (ds.length + 1) 0
      hpos (by omega)
    exact ⟨ws, (r2 h).bind0 w1⟩

variable (S : Scheme) (pc : Cloud)

/-- **C50.** For which scalars above `i32::MIN` multiplication panics in a debug build, whatever the ciphertext; for all others
the two builds agree, whatever the ciphertext. -/
theorem C50_scalar_mul_iff {k : Int} (hk : k.natAbs < 2 ^ 31) {ds : List Int}
    (hd : Returns (koyamaTsuruokaVec .release k.natAbs) ds 0) (x : Ctxt S.C) :
    (Borrows ds (Nat.log2 k.natAbs + 1) → Fails (ctScalarMul S (pc.withBuild .debug) k x) (.panic .overflow)) ∧
    (¬ Borrows ds (Nat.log2 k.natAbs + 1) →
      SameOutcome (· = ·) (ctScalarMul S (pc.withBuild .debug) k x) (ctScalarMul S (pc.withBuild .release) k x)) := by
  by_cases h1 : 1 < k.natAbs
  · obtain ⟨r1, r2⟩ := windShifts_debug_iff hk h1 hd
    have hw := C50_scalar_mul_windows S pc hk h1 x
    refine ⟨fun h => ?_, fun h => ?_⟩
    · have hs : ¬ ((windShifts .debug k.natAbs ascBitlen) (St.init Sched.seq)).toOption.isSome = true := by
        have := r1 h (St.init Sched.seq)
        generalize windShifts .debug k.natAbs ascBitlen (St.init Sched.seq) = r at this
        subst this
        decide
      rwa [if_neg hs] at hw
    · obtain ⟨ws, hws⟩ := r2 h
      have hs : ((windShifts .debug k.natAbs ascBitlen) (St.init Sched.seq)).toOption.isSome = true := by
        obtain ⟨_, _, _, hs⟩ := hws (St.init Sched.seq)
        generalize windShifts .debug k.natAbs ascBitlen (St.init Sched.seq) = r at hs
        subst hs
        rfl
      rwa [if_pos hs] at hw
  · refine ⟨?_, fun _ => C50_scalar_mul_small S pc (by omega) x⟩
    have : Nat.log2 k.natAbs = 0 := by
      obtain ⟨n, hn⟩ : ∃ n, k.natAbs = n := ⟨_, rfl⟩
      rw [hn] at h1 ⊢
      have : n ≤ 1 := by omega
      interval_cases n <;> rfl
    rw [this]
    rintro ⟨a, b, c, h1, h2, h3, -⟩
    omega

/-- **C50.** The scalars without such digits are safe in the sense of `C50_scalar_mul_safe` and of the networks of
`C50_network_safe`. -/
theorem C50_safe_of_digits {k : Int} (hk : k.natAbs < 2 ^ 31) {ds : List Int}
    (hd : Returns (koyamaTsuruokaVec .release k.natAbs) ds 0) (h : ¬ Borrows ds (Nat.log2 k.natAbs + 1)) : DebugSafe k := by
  by_cases h1 : 1 < k.natAbs
  · obtain ⟨ws, hws⟩ := (windShifts_debug_iff hk h1 hd).2 h
    refine .inr ?_
    obtain ⟨_, _, _, hs⟩ := hws (St.init Sched.seq)
    generalize windShifts .debug k.natAbs ascBitlen (St.init Sched.seq) = r at hs
    subst hs
    rfl
  · exact .inl (by omega)

/-! Cases of the hypotheses: 91 is recoded as -1 + 0·2 - 4 + 0 + 0 + 32 + 64, which has two -1 below a 1; 239 as
-1 - 16 + 256, where the 1 stands above the leading bit. -/

example : Returns (koyamaTsuruokaVec .release 91) [-1, 0, -1, 0, 0, 1, 1] 0 ∧ Borrows [-1, 0, -1, 0, 0, 1, 1] (Nat.log2 91 + 1) :=
  ⟨(C72_agree (lg := Nat.log2) (by norm_num) rfl).1, 0, 2, 5, by decide, by decide, by decide +kernel, rfl, rfl, rfl,
    fun i h1 h2 => by rw [show i = 1 by omega]; decide⟩

example (x : Ctxt S.C) : Fails (ctScalarMul S (pc.withBuild .debug) (-91) x) (.panic .overflow) :=
  (C50_scalar_mul_iff S pc (k := -91) (by decide) (ds := kt Nat.log2 91)
    (by rw [show (-91 : Int).natAbs = 91 by decide]; exact (C72_agree (lg := Nat.log2) (by norm_num) rfl).1) x).1
    ⟨0, 2, 5, by decide, by decide, by decide +kernel, by decide +kernel, by decide +kernel, by decide +kernel,
      fun i h1 h2 => by rw [show i = 1 by omega]; decide +kernel⟩

example (x : Ctxt S.C) :
    SameOutcome (· = ·) (ctScalarMul S (pc.withBuild .debug) 239 x) (ctScalarMul S (pc.withBuild .release) 239 x) := by
  refine (C50_scalar_mul_iff S pc (k := 239) (by decide) (C72_agree (lg := Nat.log2) (k := 239) (by norm_num) rfl).1 x).2 ?_
  have e : kt Nat.log2 239 = [-1, 0, 0, 0, -1, 0, 0, 0, 1] := by decide +kernel
  have hl : Nat.log2 (239 : Int).natAbs = 7 := by decide +kernel
  rw [e, hl]
  rintro ⟨a, b, c, h1, h2, h3, -, -, h6, -⟩
  interval_cases c <;> revert h6 <;> decide

end Parm
