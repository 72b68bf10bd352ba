import Verif.Props.Naf
import Verif.Proof.ScalarMul
import Verif.Proof.Instance

/-!
# Chains and scalar multiplication: properties C13, C26, C27
-/

namespace Parm
variable {S : Scheme} {ck : ClientKey S} {pc : Cloud} {B D : Nat}

/-- `pc` of a release build with the shipped chain table -/
def Shipped (pc : Cloud) : Prop := pc.build = .release ∧ pc.asc = asc12

/-- **C13.** In a release build with the shipped chain table, `scalar_mul(k, x)` is a valid
ciphertext of value `k·value(x)` for every `i32` scalar (including `i32::MIN`) and every
valid `x`, under every schedule; it has at most `bitlen(|k|) + 7` more words than `x`. -/
theorem C13_scalar_mul (st : Setting S ck pc B D) (hs : Shipped pc) {k : Int} (hk1 : -2 ^ 31 ≤ k)
    (hk2 : k < 2 ^ 31) {x : Ctxt S.C} {v : Int} (hx : Valid ck B x v) :
    Yields (ctScalarMul S pc k x) (fun z => Valid ck B z (k * v) ∧
      ∀ l, k.natAbs < 2 ^ l → z.length ≤ x.length + l + 7) :=
  ctScalarMul_valid st hs.1 (by rw [hs.2]; exact asc12_tableOk) hk1 hk2 hx

/-- **C13**, debug build: for every scalar but `i32::MIN` the result is the same value or the
call panics with an overflow — never a wrong value. -/
theorem C13_scalar_mul_debug (st : Setting S ck pc B D) (hb : pc.build = .debug) (ha : pc.asc = asc12)
    {k : Int} (hk1 : -2 ^ 31 < k) (hk2 : k < 2 ^ 31) {x : Ctxt S.C} {v : Int} (hx : Valid ck B x v) :
    Yields (ctScalarMul S pc k x) (fun z => Valid ck B z (k * v)) ∨
    Fails (ctScalarMul S pc k x) (.panic .overflow) := by
  rcases scalarMulImpl_debug st hb (by rw [ha]; exact asc12_tableOk) hk1 hk2 hx with h | ⟨_, _, h⟩
  · exact Or.inl ((h.mono fun _ h => h.1).call)
  · exact Or.inr h.call_panic

/-- **C13**, the trivial scalars cost nothing: 0 gives the empty ciphertext, ±1 a copy. -/
theorem C13_small (x : Ctxt S.C) :
    Returns (ctScalarMul S pc 0 x) [] 0 ∧ Returns (ctScalarMul S pc 1 x) x 0 ∧
    Returns (ctScalarMul S pc (-1) x) (ctOpp S x) 0 := by
  refine ⟨?_, ?_, ?_⟩ <;>
  · apply Returns.call
    refine Returns.run fun s => ?_
    exact ⟨s.region, rfl⟩

namespace Demo
/-- the demo cloud with the shipped table -/
def cloud12 : Cloud := { cloud with asc := asc12, build := .release }
theorem st12 : Setting scheme Demo.ck cloud12 (2 ^ 53) (2 ^ 51) := setting asc12 .release
theorem shipped12 : Shipped cloud12 := ⟨rfl, rfl⟩
end Demo

example : Yields (ctScalarMul Demo.scheme Demo.cloud12 (-2147483648) (Demo.encVec [1, 0, 1]))
    (fun z => Valid Demo.ck (2 ^ 53) z (-10737418240)) :=
  (C13_scalar_mul Demo.st12 Demo.shipped12 (by norm_num) (by norm_num) Demo.valid5).mono
    fun _ h => h.1.congr (by norm_num)
example : Yields (ctScalarMul Demo.scheme Demo.cloud12 1234567891 (Demo.encVec [0, 1, 0, -1]))
    (fun z => Valid Demo.ck (2 ^ 53) z (-7407407346)) :=
  (C13_scalar_mul Demo.st12 Demo.shipped12 (by norm_num) (by norm_num) Demo.validm6).mono
    fun _ h => h.1.congr (by norm_num)

/-- **C26.** The shipped table has exactly the odd numbers below 4096 as keys, in order, once
each; every chain only refers to earlier elements and multiplies by its key. -/
theorem C26_table :
    asc12.map (·.1) = (List.range 2048).map (fun i => 2 * i + 1) ∧
    ∀ k ch, (k, ch) ∈ asc12 → chainValue ch = some (k : Int) :=
  ⟨asc12_keys, fun _ _ h => (asc12_entry h).1⟩

/-- **C26.** The loader accepts the table, and every window `scalar_mul` can ask for is
present: looking up an odd `k < 4096` gives a chain of value `k`. -/
theorem C26_lookup :
    Returns (ascMapFromParsed ascBitlen (some asc12)) asc12 0 ∧
    ∀ k, k % 2 = 1 → k < 2 ^ 12 → ∃ ch, Returns (mapIdx asc12 k) ch 0 ∧ chainValue ch = some (k : Int) := by
  refine ⟨?_, fun k h1 h2 => ?_⟩
  · unfold ascMapFromParsed
    have : asc12.length = 2048 := by
      have := congrArg List.length asc12_keys
      simpa using this
    simp only
    rw [if_neg (by rw [this]; decide)]
    exact Returns.pure _
  · obtain ⟨ch, c1, c2, _⟩ := asc12_tableOk k h1 h2
    exact ⟨ch, Returns.mapIdx c1, c2⟩

/-- **C26**, the loader rejects a missing file and every table that does not have 2048 chains. -/
theorem C26_loader_rejects : Fails (ascMapFromParsed ascBitlen none) (.err .ascMissing) ∧
    ∀ m, m.length ≠ 2048 → Fails (ascMapFromParsed ascBitlen (some m)) (.err .ascCount) := by
  refine ⟨Fails.err _, fun m h => ?_⟩
  unfold ascMapFromParsed
  have e : 2 ^ ascBitlen / 2 = 2048 := rfl
  simp only [e, if_pos h]
  exact Fails.err _

/-- A wrong chain is not detected by the loader: any 2048 entries are accepted. -/
theorem C26_loader_checks_count_only (m : List (Nat × Asc)) (h : m.length = 2048) :
    Returns (ascMapFromParsed ascBitlen (some m)) m 0 := by
  unfold ascMapFromParsed
  simp only
  rw [if_neg (by rw [h]; decide)]
  exact Returns.pure _

/-- **C27.** Evaluating a chain of value `c` on a valid ciphertext multiplies by `c`. -/
theorem C27_eval (st : Setting S ck pc B D) {chain : Asc} {c : Int} (hc : chainValue chain = some c)
    {x : Ctxt S.C} {v : Int} (hx : Valid ck B x v) :
    Yields (ascEval (arithCt S pc) chain x) (fun z => Valid ck B z (c * v)) :=
  (ascEval_spec st (fun _ => rfl) (fun _ _ => rfl) (fun _ _ => rfl) hc hx).mono fun _ h => h.1

/-- all intermediate results of a chain fit `i64` -/
def chainFits : Asc → List Int → Prop
  | [], _ => True
  | e :: es, vals =>
    let l := vals.getD e.lIdx 0
    let r := vals.getD e.rIdx 0 * 2 ^ e.rShift
    let z := (if e.lPos then l else -l) + (if e.rPos then r else -r)
    e.rShift < 64 ∧ l.natAbs < 2 ^ 63 ∧ r.natAbs < 2 ^ 63 ∧ z.natAbs < 2 ^ 63 ∧ chainFits es (vals ++ [z])

theorem ascLoop_i64 (b : Build) : ∀ (chain : Asc) (vals : List Int) (c : Int),
    chainGo chain vals = some c → chainFits chain vals →
    ∃ out, Returns (ascLoop (arithI64 b) chain vals) out 0 ∧ out.getLast? = some c
  | [], vals, c, hc, _ => ⟨vals, Returns.pure _, hc⟩
  | e :: es, vals, c, hc, hf => by
    unfold chainGo at hc
    obtain ⟨f0, f1, f2, f3, f4⟩ := hf
    by_cases h1 : e.lIdx < vals.length
    · by_cases h2 : e.rIdx < vals.length
      · rw [List.getElem?_eq_getElem h1, List.getElem?_eq_getElem h2] at hc
        simp only at hc
        simp only [List.getD_eq_getElem _ _ h1, List.getD_eq_getElem _ _ h2] at f1 f2 f3 f4
        obtain ⟨out, o1, o2⟩ := ascLoop_i64 b es _ c hc f4
        refine ⟨out, ?_, o2⟩
        unfold ascLoop ascStep
        refine Returns.bind0 ?_ o1
        refine (Returns.idx h1).bind0 ?_
        refine (Returns.i64Op (x := -vals[e.lIdx]) (by omega) (by omega)).bind0 ?_
        refine (Returns.idx h2).bind0 ?_
        refine Returns.bind0 (a := vals[e.rIdx] * 2 ^ e.rShift) ?_ ?_
        · refine (Returns.shAmt64 f0).bind0 ((Returns.pure _).congr ?_ rfl)
          unfold wrapI64
          rw [Int.bmod_eq_of_le] <;> omega
        · refine (Returns.i64Op (by omega) (by omega)).bind0 ?_
          refine (Returns.i64Op (by omega) (by omega)).bind0 ?_
          exact Returns.pure _
      · rw [List.getElem?_eq_none (show vals.length ≤ e.rIdx by omega)] at hc
        split at hc <;> simp_all
    · rw [List.getElem?_eq_none (show vals.length ≤ e.lIdx by omega)] at hc
      split at hc <;> simp_all

/-- **C27.** `Asc::value` is that integer, in both builds, as long as the intermediate
results fit `i64`. -/
theorem C27_value (b : Build) {chain : Asc} {c : Int} (hc : chainValue chain = some c)
    (hf : chainFits chain [1]) : Returns (ascValue b chain) c 0 := by
  obtain ⟨out, o1, o2⟩ := ascLoop_i64 b chain [1] c hc hf
  unfold ascValue ascEval
  refine Returns.expect (o1.bind0 ?_)
  rw [o2]
  exact Returns.pure _

instance : (chain : Asc) → (vals : List Int) → Decidable (chainFits chain vals)
  | [], _ => isTrue trivial
  | e :: es, vals => by
    unfold chainFits
    have := instDecidableChainFits es
    infer_instance

theorem asc12_fits : (asc12.all fun e => decide (chainFits e.2 [1])) = true := by decide +kernel

/-- **C26/C27.** The check the loader has commented out would succeed: every shipped chain has
`value()` equal to its key, in both builds. -/
theorem C26_values (b : Build) {k : Nat} {ch : Asc} (h : (k, ch) ∈ asc12) :
    Returns (ascValue b ch) (k : Int) 0 := by
  refine C27_value b (asc12_entry h).1 ?_
  have := List.all_eq_true.1 asc12_fits _ h
  simpa using this

/-- Case: the chain of 11 (`3 = 1 + 1<<1`, `11 = -1 + 3<<2`). -/
example : Yields (ascEval (arithCt Demo.scheme Demo.cloud)
      [⟨true, 0, true, 0, 1⟩, ⟨false, 0, true, 1, 2⟩] (Demo.encVec [1, 0, 1]))
    (fun z => Valid Demo.ck (2 ^ 53) z 55) :=
  (C27_eval Demo.st (c := 11) (by decide) Demo.valid5).mono fun _ h => h.congr (by norm_num)

end Parm
