import Verif.Proof.Program
import Verif.Props.ScalarMul
import Verif.Props.Multiplication

/-!
# Whole computations: properties C07, C38, C44
-/

namespace Parm
section
variable {S : Scheme} {ck : ClientKey S} {pc : Cloud} {B D : Nat}

/-- the registers hold valid ciphertexts of the given values -/
def ValidRegs (ck : ClientKey S) (B : Nat) (xs : List (Ctxt S.C)) (vs : List Int) : Prop :=
  vs.length = xs.length ∧ ∀ i (h : i < xs.length), Valid ck B xs[i] (vs.getD i 0)

/-- if the program multiplies by scalars, then in a release build with the shipped table -/
def ScalarsOk (pc : Cloud) (p : List Instr) : Prop := (∀ k i, .scalarMul k i ∉ p) ∨ Shipped pc

theorem ScalarsOk.use {p : List Instr} (h : ScalarsOk pc p) :
    ∀ k i, .scalarMul k i ∈ p → pc.build = .release ∧ TableOk pc.asc := by
  intro k i hm
  rcases h with h | h
  · exact absurd hm (h k i)
  · exact ⟨h.1, by rw [h.2]; exact asc12_tableOk⟩

theorem ValidRegs.regsOk {xs : List (Ctxt S.C)} {vs : List Int} (h : ValidRegs ck B xs vs) {ls : List Nat}
    (hl : ls.length = xs.length) (hle : ∀ i (h : i < xs.length), xs[i].length ≤ ls.getD i 0) :
    RegsOk ck B xs vs ls := ⟨h.1, hl, fun i hi => ⟨h.2 i hi, hle i hi⟩⟩

/-- **C07.** Every operation, on valid ciphertexts (factors of at most 32 words, scalars `i32`,
constants `i64` other than `i64::MIN`), returns a valid ciphertext of the exact value: all its
words are trivial or carry fresh noise only, and hold digits in `{-1,0,1}`. -/
theorem C07_closure (st : Setting S ck pc B D) (ins : Instr) (hs : ScalarsOk pc [ins])
    {xs : List (Ctxt S.C)} {vs : List Int} (h : ValidRegs ck B xs vs) (hwf : ins.wf xs.length)
    (hmul : ∀ i j, ins = .mul i j → ∀ (hi : i < xs.length) (hj : j < xs.length),
      xs[i].length ≤ 32 ∧ xs[j].length ≤ 32)
    (hsqu : ∀ i, ins = .squ i → ∀ (hi : i < xs.length), xs[i].length ≤ 32) :
    Yields (ins.run (arithCt S pc) xs) (fun z => Valid ck B z (ins.val vs)) := by
  have hr : RegsOk ck B xs vs (xs.map List.length) :=
    h.regsOk (by simp) fun i hi => by simp [List.getD_eq_getElem?_getD, hi]
  obtain ⟨l, hl⟩ : ∃ l, ins.len (xs.map List.length) = some l := by
    cases ins
    case mul i j =>
      simp only [Instr.wf] at hwf
      have := hmul i j rfl hwf.1 hwf.2
      refine ⟨_, if_pos ?_⟩
      simp only [List.getD_eq_getElem?_getD, List.getElem?_map, List.getElem?_eq_getElem hwf.1,
        List.getElem?_eq_getElem hwf.2, Option.map_some, Option.getD_some]
      omega
    case squ i =>
      simp only [Instr.wf] at hwf
      have := hsqu i rfl hwf
      refine ⟨_, if_pos ?_⟩
      simp only [List.getD_eq_getElem?_getD, List.getElem?_map, List.getElem?_eq_getElem hwf,
        Option.map_some, Option.getD_some]
      omega
    all_goals exact ⟨_, rfl⟩
  exact (Instr.run_valid st hr ins (fun k i e => hs.use k i (by simp [e])) hwf hl).mono fun _ hz => hz.1

/-- **C44.** A program of any length, with shared intermediate results, all of whose factors
have at most 32 words according to the length bounds: under every schedule it returns, every
result is a valid ciphertext of the exact integer value within its length bound, and it
decrypts to that value if it has at most 63 words. -/
theorem C44_program (st : Setting S ck pc B D) (build : Build) (p : List Instr) (hs : ScalarsOk pc p)
    {xs : List (Ctxt S.C)} {vs : List Int} (h : ValidRegs ck B xs vs) {ls ls' : List Nat}
    (hl : ls.length = xs.length) (hle : ∀ i (h : i < xs.length), xs[i].length ≤ ls.getD i 0)
    (hwf : wfProg p xs.length) (hlen : lenProg p ls = some ls') :
    Yields (runProg (arithCt S pc) p xs) (fun zs => ValidRegs ck B zs (valProg p vs) ∧
      ∀ i (hi : i < zs.length), zs[i].length ≤ ls'.getD i 0 ∧
        (zs[i].length ≤ 63 → Returns (parmDecrypt ck build zs[i]) ((valProg p vs).getD i 0) 0)) := by
  refine (runProg_valid st p hs.use (h.regsOk hl hle) hwf hlen).mono ?_
  rintro zs ⟨h1, h2, h3⟩
  exact ⟨⟨h1, fun i hi => (h3 i hi).1⟩, fun i hi => ⟨(h3 i hi).2, fun h63 => (h3 i hi).1.decrypt st build h63⟩⟩

/-- **C44**, without length bounds: a well-formed program either returns the exact values or
stops because a factor has more than 32 words; nothing else can go wrong. -/
theorem C44_only_long_factors_fail (st : Setting S ck pc B D) (p : List Instr) (hs : ScalarsOk pc p)
    {xs : List (Ctxt S.C)} {vs : List Int} (h : ValidRegs ck B xs vs) (hwf : wfProg p xs.length) :
    Yields (runProg (arithCt S pc) p xs) (fun zs => ValidRegs ck B zs (valProg p vs)) ∨
    Fails (runProg (arithCt S pc) p xs) (.panic (.expect .mulTooLong)) ∨
    Fails (runProg (arithCt S pc) p xs) (.panic (.expect .squTooLong)) := by
  have hr : RegsOk ck B xs vs (xs.map List.length) :=
    h.regsOk (by simp) fun i hi => by simp [List.getD_eq_getElem?_getD, hi]
  rcases runProg_judge st (fun x y => C20_mul_too_long x y) (fun x => C20_squ_too_long x) p hs.use hr hwf with
    h | ⟨e, rfl | rfl, hf⟩
  · refine Or.inl (h.mono ?_)
    rintro zs ⟨ls, h1, _, h3⟩
    exact ⟨h1, fun i hi => (h3 i hi).1⟩
  · exact Or.inr (Or.inl hf)
  · exact Or.inr (Or.inr hf)

/-- encrypt the inputs `(message, words)` -/
def encryptInputs (ck : ClientKey S) (msgMod : Nat) (build : Build) (seed : Nat → Nat) :
    List (Int × Nat) → M (List (Ctxt S.C))
  | [] => pure []
  | (m, w) :: ms => do
    let x ← parmEncrypt ck msgMod build seed m w
    let xs ← encryptInputs ck msgMod build (fun i => seed (i + w)) ms
    pure (x :: xs)

theorem encryptInputs_spec (st : Setting S ck pc B D) (build : Build) : ∀ (ms : List (Int × Nat))
    (seed : Nat → Nat), (∀ mw ∈ ms, -2 ^ 63 < mw.1 ∧ mw.1 < 2 ^ 63 ∧ mw.2 ≤ 63 ∧ mw.1.natAbs < 2 ^ mw.2) →
    Yields (encryptInputs ck pc.msgMod build seed ms) (fun xs =>
      RegsOk ck B xs (ms.map (·.1)) (ms.map (·.2)))
  | [], _, _ => Yields.pure ⟨rfl, rfl, fun i hi => by simp at hi⟩
  | (m, w) :: ms, seed, h => by
    unfold encryptInputs
    obtain ⟨h1, h2, h3, h4⟩ := h (m, w) (by simp)
    refine Yields.bind (parmEncrypt_valid st build seed h1 h2 (w := w) (by omega)) ?_
    rintro x ⟨hl, hv, _⟩
    refine Yields.bind (encryptInputs_spec st build ms _ fun mw hm => h mw (by simp [hm])) ?_
    rintro xs ⟨g1, g2, g3⟩
    refine Yields.pure ⟨by simp [← g1], by simp [← g2], ?_⟩
    rw [Nat.mod_eq_of_lt h4] at hv
    have hm : (if m ≥ 0 then 1 else -1) * (m.natAbs : Int) = m := by split_ifs <;> omega
    rw [hm] at hv
    intro i hi
    cases i with
    | zero => exact ⟨hv, hl.le⟩
    | succ i => exact g3 i (by simpa using hi)

/-- **C44**, end to end: encrypt the inputs, run any program on the cloud, decrypt one result. -/
theorem C44_end_to_end (st : Setting S ck pc B D) (build : Build) (seed : Nat → Nat) (ms : List (Int × Nat))
    (hm : ∀ mw ∈ ms, -2 ^ 63 < mw.1 ∧ mw.1 < 2 ^ 63 ∧ mw.2 ≤ 63 ∧ mw.1.natAbs < 2 ^ mw.2)
    (p : List Instr) (hs : ScalarsOk pc p) (hwf : wfProg p ms.length) {ls : List Nat}
    (hlen : lenProg p (ms.map (·.2)) = some ls) (out : Nat) (ho : out < (valProg p (ms.map (·.1))).length)
    (h63 : ls.getD out 0 ≤ 63) :
    Yields (do
        let xs ← encryptInputs ck pc.msgMod build seed ms
        let zs ← runProg (arithCt S pc) p xs
        let z ← idx zs out
        parmDecrypt ck build z)
      (fun v => v = (valProg p (ms.map (·.1))).getD out 0) := by
  refine Yields.bind (encryptInputs_spec st build ms seed hm) fun xs hx => ?_
  have e : xs.length = ms.length := by rw [← hx.1]; simp
  refine Yields.bind (runProg_valid st p hs.use hx (by rwa [e]) hlen) fun zs hz => ?_
  have ho' : out < zs.length := by rw [← hz.1]; exact ho
  refine Yields.idxBind ho' ?_
  obtain ⟨a1, a2⟩ := hz.2.2 out ho'
  exact (a1.decrypt st build (by omega)).yields rfl

end

/-! ### Cases -/

/-- `(x + y)·x² - max(y, 7·x)` rounded at 3, plus its sign … -/
def demoProg : List Instr :=
  [.add 0 1, .squ 0, .mul 2 3, .scalarMul 7 0, .max 1 5, .sub 4 6, .roundAt 7 3, .sgn 8, .addConst 9 (-100),
   .shift 10 2, .relu 11, .opp 7, .add 13 12]

example : wfProg demoProg 2 := by decide
example : valProg demoProg [5, -6] =
    [5, -6, -1, 25, -25, 35, 35, -60, -56, -1, -101, -404, 0, 60, 60] := by decide
example : lenProg demoProg [3, 4] = some [3, 4, 5, 6, 12, 13, 13, 14, 15, 1, 8, 10, 10, 14, 15] := by decide

example : Yields (runProg (arithCt Demo.scheme Demo.cloud12) demoProg [Demo.encVec [1, 0, 1], Demo.encVec [0, 1, 0, -1]])
    (fun zs => ValidRegs Demo.ck (2 ^ 53) zs [5, -6, -1, 25, -25, 35, 35, -60, -56, -1, -101, -404, 0, 60, 60]) :=
  (C44_program Demo.st12 .release demoProg (Or.inr Demo.shipped12) (vs := [5, -6]) (ls := [3, 4])
    ⟨rfl, fun i hi => by
      have : i = 0 ∨ i = 1 := by simp at hi; omega
      rcases this with rfl | rfl
      · exact Demo.valid5
      · exact Demo.validm6⟩ rfl
    (fun i hi => by
      have : i = 0 ∨ i = 1 := by simp at hi; omega
      rcases this with rfl | rfl <;> simp [Demo.encVec]) (by decide) rfl).mono fun _ h => h.1

example : Yields (do
    let xs ← encryptInputs Demo.ck 32 .release id [(5, 3), (-6, 4)]
    let zs ← runProg (arithCt Demo.scheme Demo.cloud12) demoProg xs
    let z ← idx zs 8
    parmDecrypt Demo.ck .release z) (fun v => v = -56) :=
  C44_end_to_end Demo.st12 .release id [(5, 3), (-6, 4)] (by decide) demoProg (Or.inr Demo.shipped12)
    (by decide) (ls := [3, 4, 5, 6, 12, 13, 13, 14, 15, 1, 8, 10, 10, 14, 15]) (by decide) 8 (by decide) (by decide)

/-! ### Noise budget -/

section
variable {S : Scheme} {B D : Nat}

/-- the scheme `S`, except that a bootstrap of a ciphertext whose noise exceeds `T` returns
whatever `junk` returns -/
noncomputable def guarded (S : Scheme) (ck : ClientKey S) (T : Nat) (junk : List (BitVec 64) → S.C → S.C) : Scheme :=
  { S with
    pbs := fun acc c =>
      open Classical in
      if ∃ m e : Int, e.natAbs ≤ T ∧ ck.phase c = BitVec.ofInt 64 (m * 2 ^ 59 + e) then S.pbs acc c
      else junk acc c }

/-- **C38.** Let the bootstraps of all ciphertexts whose noise exceeds `t` times the fresh noise —
`t = 15` for `quad_weight ≥ 85`, 9 for 41 to 84, 8 below — be corrupted arbitrarily.  The setting of
all correctness theorems still holds, so every operation on valid inputs still returns the right
result: none of them looks up a word beyond that noise. -/
theorem C38_setting {ck : ClientKey S} {pc : Cloud} (st : Setting S ck pc B D)
    (junk : List (BitVec 64) → S.C → S.C) :
    Setting (guarded S ck (tolWeight pc.params.quadWeight * B) junk) ⟨ck.phase, ck.encrypt⟩ pc B D where
  msgMod := st.msgMod
  carryMod := st.carryMod
  bitPrecision := st.bitPrecision
  polySize := st.polySize
  tolerance := st.tolerance
  sound :=
    { phase_add := st.sound.phase_add
      phase_neg := st.sound.phase_neg
      phase_mulC := st.sound.phase_mulC
      phase_addPt := st.sound.phase_addPt
      phase_encrypt := st.sound.phase_encrypt
      phase_pbs := by
        intro acc c m n hl hn hp
        have : (guarded S ck (tolWeight pc.params.quadWeight * B) junk).pbs acc c = S.pbs acc c :=
          if_pos ⟨m, n, hn, hp⟩
        rw [this]
        exact st.sound.phase_pbs acc c m n hl hn hp }

theorem wordEnc_guarded {ck : ClientKey S} {T : Nat} {junk : List (BitVec 64) → S.C → S.C} {w : Word S.C}
    {m : Int} {k : Nat} :
    WordEnc (S := guarded S ck T junk) ⟨ck.phase, ck.encrypt⟩ B w m k ↔ WordEnc ck B w m k := by
  obtain ⟨c, n⟩ := w
  cases c <;> exact Iff.rfl

theorem valid_guarded {ck : ClientKey S} {T : Nat} {junk : List (BitVec 64) → S.C → S.C} {x : Ctxt S.C} {v : Int} :
    Valid (S := guarded S ck T junk) ⟨ck.phase, ck.encrypt⟩ B x v ↔ Valid ck B x v := by
  constructor
  · rintro ⟨d, h, e⟩
    exact ⟨d, fun i hi => ⟨wordEnc_guarded.1 (h i hi).1, (h i hi).2⟩, e⟩
  · rintro ⟨d, h, e⟩
    exact ⟨d, fun i hi => ⟨wordEnc_guarded.2 (h i hi).1, (h i hi).2⟩, e⟩

/-- **C38**, spelled out for programs of any length. -/
theorem C38_programs {ck : ClientKey S} {pc : Cloud} (st : Setting S ck pc B D)
    (junk : List (BitVec 64) → S.C → S.C) (p : List Instr) (hs : ScalarsOk pc p)
    {xs : List (Ctxt S.C)} {vs : List Int} (h : ValidRegs ck B xs vs) {ls ls' : List Nat}
    (hl : ls.length = xs.length) (hle : ∀ i (h : i < xs.length), xs[i].length ≤ ls.getD i 0)
    (hwf : wfProg p xs.length) (hlen : lenProg p ls = some ls') :
    Yields (runProg (arithCt (guarded S ck (tolWeight pc.params.quadWeight * B) junk) pc) p xs)
      (fun zs => ValidRegs (S := S) ck B zs (valProg p vs)) :=
  (C44_program (C38_setting st junk) .release p hs (xs := xs) (vs := vs)
    ⟨h.1, fun i hi => valid_guarded.2 (h.2 i hi)⟩ hl hle hwf hlen).mono
    fun _ h => ⟨h.1.1, fun i hi => valid_guarded.1 (h.1.2 i hi)⟩

end

/-- The demo scheme (`quad_weight = 100`) with every bootstrap beyond 15 times the fresh noise corrupted. -/
example (junk : List (BitVec 64) → Demo.scheme.C → Demo.scheme.C) :=
  C38_programs Demo.st12 junk demoProg (Or.inr Demo.shipped12) (vs := [5, -6]) (ls := [3, 4])
    (xs := [Demo.encVec [1, 0, 1], Demo.encVec [0, 1, 0, -1]])
    ⟨rfl, fun i hi => by
      have : i = 0 ∨ i = 1 := by simp at hi; omega
      rcases this with rfl | rfl
      · exact Demo.valid5
      · exact Demo.validm6⟩ rfl
    (fun i hi => by
      have : i = 0 ∨ i = 1 := by simp at hi; omega
      rcases this with rfl | rfl <;> simp [Demo.encVec]) (by decide) rfl

end Parm
