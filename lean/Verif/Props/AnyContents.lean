import Verif.Proof.AnyProgram
import Verif.Props.Program

/-!
# Property C74: no operation fails, whatever the words hold

The operands are ciphertexts of words of message modulus 32 (the shipped parameters); nothing
is assumed about what the words hold: any phase, any noise, encryptions under another key, trivial
words of any value.  No operation detects anything: errors can only appear on decryption.
-/

namespace Parm
section
variable {S : Scheme} {pc : Cloud}

/-- words of modulus 32; nothing else -/
def AnyWords {C : Type} (x : Ctxt C) : Prop := ∀ w ∈ x, w.msgMod = 32

/-- **C74.** Addition and subtraction, refreshing or not, negation and shift. -/
theorem C74_linear (hm : pc.msgMod = 32) (hc : pc.carryMod = 1) {x y : Ctxt S.C} (hx : AnyWords x) (hy : AnyWords y) :
    Yields (ctAdd S pc x y) (fun z => AnyWords z ∧ z.length ≤ max x.length y.length + 1) ∧
    Yields (ctSub S pc x y) (fun z => AnyWords z ∧ z.length ≤ max x.length y.length + 1) ∧
    Yields (ctAddNoisy S pc x y) (fun z => AnyWords z ∧ z.length ≤ max x.length y.length + 1) ∧
    Yields (ctSubNoisy S pc x y) (fun z => AnyWords z ∧ z.length ≤ max x.length y.length + 1) ∧
    AnyWords (ctOpp S x) ∧ ∀ k, AnyWords (ctShift pc x k) :=
  have h : Mods pc := ⟨hm, hc⟩
  ⟨(addSub_any_len h true true hx hy).call, (addSub_any_len h false true hx hy).call,
    (addSub_any_len h true false hx hy).call, (addSub_any_len h false false hx hy).call,
    Mod32.opp hx, fun k => Mod32.shift h hx k⟩

/-- **C74.** Signum, maximum, ReLU and rounding. -/
theorem C74_nonlinear (hm : pc.msgMod = 32) (hc : pc.carryMod = 1) {x y : Ctxt S.C} (hx : AnyWords x) (hy : AnyWords y) :
    Yields (ctSgn S pc x) (fun z => AnyWords z ∧ z.length = if x = [] then 0 else 1) ∧
    Yields (ctMax S pc x y) (fun z => AnyWords z ∧ z.length = max x.length y.length) ∧
    Yields (ctRelu S pc x) (fun z => AnyWords z ∧ z.length = x.length) ∧
    ∀ p, Yields (ctRoundAt S pc x p) (fun z => AnyWords z ∧ z.length ≤ max x.length (p + 1) + 1) :=
  have h : Mods pc := ⟨hm, hc⟩
  ⟨ctSgn_any h hx, (maxImpl_any h hx hy).call,
    (maxImpl_any h (x := ctZero S.C) Mod32.nil hx).call.mono fun _ hz => ⟨hz.1, by simp [hz.2, ctZero, emptyCt]⟩,
    ctRoundAt_any h hx⟩

/-- **C74.** Multiplication and squaring of up to 32 words. -/
theorem C74_products (hm : pc.msgMod = 32) (hc : pc.carryMod = 1) {x y : Ctxt S.C} (hx : AnyWords x) (hy : AnyWords y)
    (hlx : x.length ≤ 32) (hly : y.length ≤ 32) :
    Yields (ctMul S pc x y) (fun z => AnyWords z ∧ z.length ≤ mulLen (max x.length y.length)) ∧
    Yields (ctSqu S pc x) (fun z => AnyWords z ∧ z.length ≤ squLen x.length) :=
  have h : Mods pc := ⟨hm, hc⟩
  ⟨ctMul_any h hx hy (by omega), ctSqu_any h hx hlx⟩

/-- **C74.** Adding any `i64` constant (in debug builds other than `i64::MIN`) and, in a release
build with the shipped table, multiplying by any `i32` scalar. -/
theorem C74_constants (hm : pc.msgMod = 32) (hc : pc.carryMod = 1) {x : Ctxt S.C} (hx : AnyWords x) :
    (∀ k : Int, -2 ^ 63 ≤ k → k < 2 ^ 63 → (pc.build = .release ∨ k ≠ -2 ^ 63) →
      Yields (ctAddConst S pc x k) (fun z => AnyWords z ∧ ∀ l, k.natAbs < 2 ^ l → z.length ≤ max x.length l + 1)) ∧
    (Shipped pc → ∀ k : Int, -2 ^ 31 ≤ k → k < 2 ^ 31 →
      Yields (ctScalarMul S pc k x) (fun z => AnyWords z ∧ ∀ l, k.natAbs < 2 ^ l → z.length ≤ x.length + l + 7)) :=
  have h : Mods pc := ⟨hm, hc⟩
  ⟨fun _ h1 h2 h3 => ctAddConst_any h hx h1 h2 h3,
    fun hs _ h1 h2 => ctScalarMul_any h hs.1 (by rw [hs.2]; exact asc12_tableOk) h1 h2 hx⟩

/-- **C74.** A program of any length, whose factors have at most 32 words according to the length
bounds, returns under every schedule; all its results are again such ciphertexts, within the
length bounds. -/
theorem C74_program (hm : pc.msgMod = 32) (hc : pc.carryMod = 1) (p : List Instr) (hs : ScalarsOk pc p)
    {xs : List (Ctxt S.C)} (h : ∀ x ∈ xs, AnyWords x) {ls' : List Nat}
    (hwf : wfProg p xs.length) (hlen : lenProg p (xs.map List.length) = some ls') :
    Yields (runProg (arithCt S pc) p xs) (fun zs => (∀ z ∈ zs, AnyWords z) ∧
      ∀ i (hi : i < zs.length), zs[i].length ≤ ls'.getD i 0) :=
  (runProg_any ⟨hm, hc⟩ p hs.use (RegsAny.ofMod h) hwf hlen).mono fun _ hz => ⟨hz.mod, fun i hi => (hz.2 i hi).2⟩

/-- **C74**, without length bounds: the only way to fail is a factor of more than 32 words. -/
theorem C74_only_long_factors_fail (hm : pc.msgMod = 32) (hc : pc.carryMod = 1) (p : List Instr) (hs : ScalarsOk pc p)
    {xs : List (Ctxt S.C)} (h : ∀ x ∈ xs, AnyWords x) (hwf : wfProg p xs.length) :
    Yields (runProg (arithCt S pc) p xs) (fun zs => (∀ z ∈ zs, AnyWords z) ∧ zs.length = xs.length + p.length) ∨
    Fails (runProg (arithCt S pc) p xs) (.panic (.expect .mulTooLong)) ∨
    Fails (runProg (arithCt S pc) p xs) (.panic (.expect .squTooLong)) := by
  rcases runProg_any_judge ⟨hm, hc⟩ (fun x y => C20_mul_too_long x y) (fun x => C20_squ_too_long x) p hs.use h hwf with
    h | ⟨e, rfl | rfl, hf⟩
  · exact Or.inl h
  · exact Or.inr (Or.inl hf)
  · exact Or.inr (Or.inr hf)

/-! ### Decryption of arbitrary words -/

/-- what a word holds on the torus -/
def wordPhase (ck : ClientKey S) (w : Word S.C) : BitVec 64 :=
  match w.ct with
  | .ct c => ck.phase c
  | .triv p => p

/-- the multiple of `2^59` nearest to a phase, in `-16 … 15` -/
def nearestDigit (p : BitVec 64) : Int := (((p.toNat + 2 ^ 58) / 2 ^ 59 : Nat) + 16 : Int) % 32 - 16

theorem decryptMi_nearest (ck : ClientKey S) {w : Word S.C} (hw : w.msgMod = 32) :
    Returns (decryptMi (some ck) w) (nearestDigit (wordPhase ck w)) 0 := by
  have key : ∀ p : BitVec 64, muToMi 32 (ptToMu 32 p) = nearestDigit p := by
    intro p
    unfold nearestDigit
    apply muToMi32
    rw [ptToMu32_nat]
    have : p.toNat / 2 ^ 58 = p.toNat / 2 ^ 58 := rfl
    omega
  obtain ⟨wc, wm⟩ := w
  simp only at hw
  subst hw
  unfold decryptMi decryptMu wordPhase
  cases wc with
  | ct c => exact (Returns.pure _).bind0 ((Returns.pure _).congr (key _) rfl)
  | triv p => exact (Returns.pure _).bind0 ((Returns.pure _).congr (key _) rfl)

/-- **C74.** Decryption under any key: every word is rounded to the nearest digit; the value is
returned if all of them are in `{-1, 0, 1}`, otherwise the alphabet error, and with more than 63
words the length error.  It never panics. -/
theorem C74_decrypt (ck : ClientKey S) (build : Build) {x : Ctxt S.C} (hx : AnyWords x) :
    (63 < x.length → Fails (parmDecrypt ck build x) (.err .ctTooLong)) ∧
    (x.length ≤ 63 → (∀ w ∈ x, IsDigit (nearestDigit (wordPhase ck w))) →
      Returns (parmDecrypt ck build x) (value (x.map fun w => nearestDigit (wordPhase ck w))) 0) ∧
    (x.length ≤ 63 → (∃ w ∈ x, ¬ IsDigit (nearestDigit (wordPhase ck w))) →
      Fails (parmDecrypt ck build x) (.err .decAlphabet)) := by
  have hv : Returns (parmDecryptToVec ck x) (x.map fun w => nearestDigit (wordPhase ck w)) 0 :=
    Returns.mapM _ x fun w hw => decryptMi_nearest ck (hx w hw)
  unfold parmDecrypt
  refine ⟨fun hl => hv.bind_fails (convertFromVec_long build (by simpa using hl)), fun hl hd => ?_, fun hl hd => ?_⟩
  · refine hv.bind0 (convertFromVec_ok build (by simpa using hl) ?_)
    intro d hm
    obtain ⟨w, hw, rfl⟩ := List.mem_map.1 hm
    exact hd w hw
  · refine hv.bind_fails (convertFromVec_err build (by simpa using hl) ?_)
    obtain ⟨w, hw, hn⟩ := hd
    exact fun hall => hn (hall _ (List.mem_map.2 ⟨w, hw, rfl⟩))

end

/-- three words: a full-range phase, half the torus, a trivial word that is no digit -/
def Demo.junk : Ctxt Demo.scheme.C :=
  [⟨.ct (7#64, 12345678901234567#64), 32⟩, ⟨.ct (0#64, 9223372036854775808#64), 32⟩,
    ⟨.triv (BitVec.ofNat 64 (2 ^ 64 - 1)), 32⟩]

theorem Demo.junk_any : AnyWords Demo.junk := by
  intro w hw
  simp only [Demo.junk, List.mem_cons, List.not_mem_nil, or_false] at hw
  rcases hw with rfl | rfl | rfl <;> rfl

/-- (junk · junk)² − 5·junk, its sign and maximum, all without a failure -/
example : Yields (runProg (arithCt Demo.scheme { Demo.cloud with build := .release, asc := asc12 })
      [.mul 0 0, .squ 1, .scalarMul (-5) 0, .add 2 3, .sgn 4, .max 0 5, .roundAt 6 2, .addConst 7 (-100)] [Demo.junk])
    (fun zs => ∀ z ∈ zs, AnyWords z) :=
  (C74_program (pc := { Demo.cloud with build := .release, asc := asc12 }) rfl rfl
    [.mul 0 0, .squ 1, .scalarMul (-5) 0, .add 2 3, .sgn 4, .max 0 5, .roundAt 6 2, .addConst 7 (-100)]
    (Or.inr ⟨rfl, rfl⟩) (xs := [Demo.junk]) (by simpa using Demo.junk_any) (by decide) rfl).mono fun _ h => h.1

/-- its second word is half the torus away from zero: decryption reports the alphabet -/
example : Fails (parmDecrypt Demo.ck .release Demo.junk) (.err .decAlphabet) :=
  (C74_decrypt Demo.ck .release Demo.junk_any).2.2 (by decide)
    ⟨⟨.ct (0#64, 9223372036854775808#64), 32⟩, by simp [Demo.junk], by unfold IsDigit; decide +kernel⟩

end Parm
