import Verif.Proof.AddOps
import Verif.Proof.AddAny
import Verif.Proof.Instance

/-!
# Properties C04–C06, C08–C12: addition, subtraction, negation, shift, constants
-/

namespace Parm
section
variable {S : Scheme} {ck : ClientKey S} {pc : Cloud} {B D : Nat}

/-- **C04.** Addition of two valid ciphertexts (any lengths, any mixture of trivial and
encrypted words, any redundant representation) never fails and gives a valid ciphertext of the
sum. -/
theorem C04_add (st : Setting S ck pc B D) {x y : Ctxt S.C} {vx vy : Int}
    (hx : Valid ck B x vx) (hy : Valid ck B y vy) :
    Yields (ctAdd S pc x y) (fun z => Valid ck B z (vx + vy)) :=
  (ctAdd_valid st hx hy).mono fun _ h => h.1

/-- **C05.** Subtraction. -/
theorem C05_sub (st : Setting S ck pc B D) {x y : Ctxt S.C} {vx vy : Int}
    (hx : Valid ck B x vx) (hy : Valid ck B y vy) :
    Yields (ctSub S pc x y) (fun z => Valid ck B z (vx - vy)) :=
  (ctSub_valid st hx hy).mono fun _ h => h.1

example : Yields (ctAdd Demo.scheme Demo.cloud (Demo.encVec [1, 0, 1]) (Demo.encVec [0, 1, 0, -1]))
    (fun z => Valid Demo.ck (2 ^ 53) z (-1)) :=
  (C04_add Demo.st Demo.valid5 Demo.validm6).mono fun _ h => h.congr (by norm_num)
example : Yields (ctSub Demo.scheme Demo.cloud (Demo.encVec [1, 0, 1]) (Demo.encVec [0, 1, 0, -1]))
    (fun z => Valid Demo.ck (2 ^ 53) z 11) :=
  (C05_sub Demo.st Demo.valid5 Demo.validm6).mono fun _ h => h.congr (by norm_num)

/-- **C06.** The noisy variants never fail; every word of the result carries at most 5 times the
fresh noise, and the result decrypts to the exact sum / difference (if it has at most 63 words,
as for every decryption). -/
theorem C06_add_noisy (st : Setting S ck pc B D) (build : Build) {x y : Ctxt S.C} {vx vy : Int}
    (hx : Valid ck B x vx) (hy : Valid ck B y vy) :
    Yields (ctAddNoisy S pc x y) (fun z => z.length ≤ max x.length y.length + 1 ∧
      (∃ d, Holds ck B 5 z d ∧ valueN d z.length = vx + vy) ∧
      (z.length ≤ 63 → Returns (parmDecrypt ck build z) (vx + vy) 0)) := by
  refine ((addSub_spec st true false hx hy).mono ?_).call
  rintro z ⟨⟨d, hd, hv⟩, hl⟩
  refine ⟨hl, ⟨d, hd, hv⟩, fun h => ?_⟩
  have hk : 5 * B < 2 ^ 58 := by have := st.tol8 (k := 5) (by norm_num); omega
  exact (parmDecrypt_holds hk build hd h).congr hv rfl

theorem C06_sub_noisy (st : Setting S ck pc B D) (build : Build) {x y : Ctxt S.C} {vx vy : Int}
    (hx : Valid ck B x vx) (hy : Valid ck B y vy) :
    Yields (ctSubNoisy S pc x y) (fun z => z.length ≤ max x.length y.length + 1 ∧
      (∃ d, Holds ck B 5 z d ∧ valueN d z.length = vx - vy) ∧
      (z.length ≤ 63 → Returns (parmDecrypt ck build z) (vx - vy) 0)) := by
  refine ((addSub_spec st false false hx hy).mono ?_).call
  rintro z ⟨⟨d, hd, hv⟩, hl⟩
  refine ⟨hl, ⟨d, hd, hv⟩, fun h => ?_⟩
  have hk : 5 * B < 2 ^ 58 := by have := st.tol8 (k := 5) (by norm_num); omega
  exact (parmDecrypt_holds hk build hd h).congr hv rfl

example : Yields (ctSubNoisy Demo.scheme Demo.cloud (Demo.encVec [1, 0, 1]) (Demo.encVec [0, 1, 0, -1]))
    (fun z => Returns (parmDecrypt Demo.ck .debug z) 11 0) :=
  (C06_sub_noisy Demo.st .debug Demo.valid5 Demo.validm6).mono fun z h => by
    have h1 : z.length ≤ 63 := h.1.trans (by simp [Demo.encVec])
    exact (h.2.2 h1).congr (by norm_num) rfl

/-! ### C08, C09: length and cost -/

theorem trivialZero_iff {C : Type} (w : Word C) : TrivialZero w ↔ w.isTrivZero = true := by
  obtain ⟨wc, wm⟩ := w
  cases wc <;> simp [TrivialZero, Word.isTrivZero]

theorem not_trivialZero_iff {C : Type} (w : Word C) : ¬ TrivialZero w ↔ w.isTrivZero = false := by
  rw [trivialZero_iff]; simp

theorem rzero_eq_length {C : Type} {x : Ctxt C} (h : ∀ w ∈ x, TrivialZero w) : rzero x = x.length := by
  by_contra hc
  have hlt : rzero x < x.length := by have := rzero_le x; omega
  have h1 := rzero_at x hlt
  rw [(trivialZero_iff _).1 (h _ (List.getElem_mem hlt))] at h1
  cases h1

theorem rzero_ne_length {C : Type} {x : Ctxt C} (h : ¬ ∀ w ∈ x, TrivialZero w) : rzero x < x.length := by
  by_contra hc
  apply h
  intro w hw
  obtain ⟨i, hi, rfl⟩ := List.getElem_of_mem hw
  rw [trivialZero_iff]
  exact rzero_low x (by omega) hi

theorem rzero_eq {C : Type} {x : Ctxt C} {r : Nat} (h : LowZeros x r) : rzero x = r := by
  obtain ⟨h1, h2, h3⟩ := h
  rw [not_trivialZero_iff] at h3
  rcases lt_trichotomy (rzero x) r with h | h | h
  · have hlt : rzero x < x.length := by omega
    have h4 := rzero_at x hlt
    rw [(trivialZero_iff _).1 (h1 _ hlt h)] at h4
    cases h4
  · exact h
  · rw [rzero_low x h h2] at h3; cases h3

theorem strip_eq {C : Type} {x : Ctxt C} {n : Nat} (h : StrippedLen x n) : x.length - lzero x = n := by
  obtain ⟨h1, h2, h3⟩ := h
  have hl := lzero_le x
  rcases lt_trichotomy (x.length - lzero x) n with h | h | h
  · obtain ⟨h4, h5⟩ := h3 (by omega)
    rw [not_trivialZero_iff] at h5
    rw [lzero_high x (by omega) h4] at h5; cases h5
  · exact h
  · have h4 := lzero_at x (by omega)
    rw [(trivialZero_iff _).1 (h2 _ (by omega) (by omega))] at h4; cases h4

/-- the four additions of two ciphertexts offered by the API -/
def addOf (S : Scheme) (isAdd refresh : Bool) (pc : Cloud) (x y : Ctxt S.C) : M (Ctxt S.C) :=
  match isAdd, refresh with
  | true, true => ctAdd S pc x y
  | false, true => ctSub S pc x y
  | true, false => ctAddNoisy S pc x y
  | false, false => ctSubNoisy S pc x y

theorem addOf_eq (isAdd refresh : Bool) (x y : Ctxt S.C) :
    addOf S isAdd refresh pc x y = (addSubImpl S isAdd pc x y refresh).call := by
  cases isAdd <;> cases refresh <;> rfl

/-- **C08**, shortcut: if the first operand consists of trivial zeros only (or is empty), the sum
is the second operand itself and the difference its opposite; no bootstrap.  No assumption on
the operands or the keys. -/
theorem C08_left_zero {x y : Ctxt S.C} (h : ∀ w ∈ x, TrivialZero w) (refresh : Bool) :
    Returns (addOf S true refresh pc x y) y 0 ∧ Returns (addOf S false refresh pc x y) (ctOpp S y) 0 := by
  rw [addOf_eq, addOf_eq]
  exact ⟨(addSub_left_zero (isAdd := true) (rzero_eq_length h)).call,
    (addSub_left_zero (isAdd := false) (rzero_eq_length h)).call⟩

/-- **C08**, shortcut on the right. -/
theorem C08_right_zero {x y : Ctxt S.C} (hx : ¬ ∀ w ∈ x, TrivialZero w) (h : ∀ w ∈ y, TrivialZero w)
    (isAdd refresh : Bool) : Returns (addOf S isAdd refresh pc x y) x 0 := by
  rw [addOf_eq]
  exact (addSub_right_zero (rzero_ne_length hx).ne (rzero_eq_length h)).call

/-- **C08**, main case: exactly one word more than the longer stripped operand.  Nothing is assumed
about the contents of the words (any phases, any trivial values). -/
theorem C08_length (hm : pc.msgMod = 32) (hc : pc.carryMod = 1) {x y : Ctxt S.C} (hx : ∀ w ∈ x, w.msgMod = 32)
    (hx0 : ¬ ∀ w ∈ x, TrivialZero w) (hy0 : ¬ ∀ w ∈ y, TrivialZero w)
    {nx ny : Nat} (hnx : StrippedLen x nx) (hny : StrippedLen y ny) (isAdd refresh : Bool) :
    Yields (addOf S isAdd refresh pc x y) (fun z => z.length = max nx ny + 1) := by
  rw [← strip_eq hnx, ← strip_eq hny, addOf_eq]
  refine ((addSub_any hm hc isAdd refresh hx (rzero_ne_length hx0) (rzero_ne_length hy0)).yields.mono ?_).call
  rintro z ⟨n, _, hl, _⟩; exact hl

/-- **C08**, in all cases: never fails, at most one word more than the longer operand. -/
theorem C08_length_le (hm : pc.msgMod = 32) (hc : pc.carryMod = 1) {x y : Ctxt S.C} (hx : ∀ w ∈ x, w.msgMod = 32)
    (isAdd refresh : Bool) :
    Yields (addOf S isAdd refresh pc x y) (fun z => z.length ≤ max x.length y.length + 1) := by
  by_cases hx0 : ∀ w ∈ x, TrivialZero w
  · cases isAdd
    · refine ⟨_, 0, (C08_left_zero hx0 refresh).2, ?_⟩
      have : (ctOpp S y).length = y.length := by simp [ctOpp, oppositeImpl]
      omega
    · exact ⟨_, 0, (C08_left_zero hx0 refresh).1, by omega⟩
  · by_cases hy0 : ∀ w ∈ y, TrivialZero w
    · exact ⟨_, 0, C08_right_zero hx0 hy0 isAdd refresh, by omega⟩
    · rw [addOf_eq]
      refine ((addSub_any hm hc isAdd refresh hx (rzero_ne_length hx0) (rzero_ne_length hy0)).yields.mono ?_).call
      rintro z ⟨n, _, hl, _⟩
      omega

/-- two ciphertexts of no value at all: words far from any digit and trivial words of the largest value -/
example : Yields (addOf Demo.scheme false false Demo.cloud
    [⟨.ct (7#64, 12345678901234567#64), 32⟩, ⟨.triv (BitVec.ofNat 64 (2 ^ 64 - 1)), 32⟩] [⟨.ct (0#64, 9223372036854775808#64), 32⟩])
    (fun z => z.length ≤ 3) :=
  (C08_length_le rfl rfl (by simp) false false).mono fun _ h => h

/-- **C09.** Bootstraps of an addition: at most `2·(w - r)` (refreshing) or `w - r` (noisy), with
`w` the stripped length of the longer operand and `r` the larger number of low-order trivial
zeros; exactly that many if at every position from `r` to `w` one of the operands has an
encrypted word.  Nothing is assumed about the contents of the words. -/
theorem C09_add_cost (hm : pc.msgMod = 32) (hc : pc.carryMod = 1) {x y : Ctxt S.C} (hx : ∀ w ∈ x, w.msgMod = 32)
    {nx ny rx ry : Nat}
    (hnx : StrippedLen x nx) (hny : StrippedLen y ny) (hrx : LowZeros x rx) (hry : LowZeros y ry)
    (isAdd refresh : Bool) :
    ∃ z n, Returns (addOf S isAdd refresh pc x y) z n ∧
      n ≤ (if refresh then 2 else 1) * (max nx ny - max rx ry) ∧
      ((∀ i, max rx ry ≤ i → i < max nx ny →
          (∃ h : i < x.length, Encrypted x[i]) ∨ (∃ h : i < y.length, Encrypted y[i])) →
        n = (if refresh then 2 else 1) * (max nx ny - max rx ry)) := by
  have enc : ∀ w : Word S.C, Encrypted w → w.isTriv = false := by
    rintro ⟨wc, wm⟩ ⟨c, hc⟩
    simp only at hc
    subst hc; rfl
  have hx0 : rzero x < x.length := by rw [rzero_eq hrx]; exact hrx.2.1
  have hy0 : rzero y < y.length := by rw [rzero_eq hry]; exact hry.2.1
  obtain ⟨z, n, hz, _, _, h1, h2⟩ := addSub_any hm hc isAdd refresh hx hx0 hy0
  rw [strip_eq hnx, strip_eq hny, rzero_eq hrx, rzero_eq hry] at h1 h2
  refine ⟨z, n, ?_, h1, fun h => h2 ?_⟩
  · rw [addOf_eq]; exact hz.call
  · intro i hi hi'
    rcases h i hi hi' with ⟨h3, h4⟩ | ⟨h3, h4⟩
    · exact Or.inl ⟨h3, enc _ h4⟩
    · exact Or.inr ⟨h3, enc _ h4⟩

/-- three words plus four words: 5 words, 8 bootstraps -/
example : ∃ z n, Returns (ctAdd Demo.scheme Demo.cloud (Demo.encVec [1, 0, 1]) (Demo.encVec [0, 1, 0, -1])) z n ∧
    z.length = 5 ∧ n = 8 := by
  have e : ∀ (l : List Int) i (h : i < (Demo.encVec l).length), Encrypted (Demo.encVec l)[i] := by
    intro l i h
    exact ⟨_, by simp only [Demo.encVec, List.getElem_map]; rfl⟩
  have ne : ∀ (l : List Int) i (h : i < (Demo.encVec l).length), ¬ TrivialZero (Demo.encVec l)[i] := by
    intro l i h ht
    obtain ⟨c, hc⟩ := e l i h
    rw [TrivialZero, hc] at ht; cases ht
  have len : ∀ l : List Int, (Demo.encVec l).length = l.length := fun l => by simp [Demo.encVec]
  have strip : ∀ l : List Int, StrippedLen (Demo.encVec l) l.length := fun l =>
    ⟨by rw [len], fun i h h' => by rw [len] at h; omega, fun h => ⟨by rw [len]; omega, ne _ _ _⟩⟩
  have low : ∀ l : List Int, l ≠ [] → LowZeros (Demo.encVec l) 0 := fun l hl =>
    ⟨fun i h h' => by omega, by rw [len]; exact List.length_pos_iff.2 hl, ne _ _ _⟩
  have md : ∀ l : List Int, ∀ w ∈ Demo.encVec l, w.msgMod = 32 := by
    intro l w hw
    simp only [Demo.encVec, List.mem_map] at hw
    obtain ⟨d, _, rfl⟩ := hw
    rfl
  have nz : ∀ l : List Int, l ≠ [] → ¬ ∀ w ∈ Demo.encVec l, TrivialZero w := fun l hl h =>
    ne l 0 (by rw [len]; exact List.length_pos_iff.2 hl) (h _ (List.getElem_mem _))
  obtain ⟨z, n, hz, _, hn⟩ := C09_add_cost (pc := Demo.cloud) rfl rfl (md [1, 0, 1]) (strip _) (strip _)
    (low _ (by simp)) (low [0, 1, 0, -1] (by simp)) true true
  obtain ⟨z', n', hz', hl⟩ := C08_length (pc := Demo.cloud) rfl rfl (md [1, 0, 1]) (nz _ (by simp))
    (nz [0, 1, 0, -1] (by simp)) (strip _) (strip _) true true
  obtain ⟨rfl, rfl⟩ := hz.unique hz'
  refine ⟨z, n, hz, hl, hn ?_⟩
  intro i _ hi
  exact Or.inr ⟨by rw [len]; exact hi, e _ _ _⟩

/-! ### C10, C11, C12 -/

/-- **C10.** Opposite: same length, value negated (a pure function: no bootstrap, no failure). -/
theorem C10_opp (st : Setting S ck pc B D) {x : Ctxt S.C} {v : Int} (hx : Valid ck B x v) :
    Valid ck B (ctOpp S x) (-v) ∧ (ctOpp S x).length = x.length ∧ Valid ck B (ctOpp S (ctOpp S x)) v := by
  refine ⟨hx.oppositeImpl st, by simp [ctOpp, oppositeImpl], ?_⟩
  exact ((hx.oppositeImpl st).oppositeImpl st).congr (by ring)

/-- **C11.** Shift by `k` words multiplies by `2^k` (a pure function). -/
theorem C11_shift (st : Setting S ck pc B D) {x : Ctxt S.C} {v : Int} (hx : Valid ck B x v) (k : Nat) :
    Valid ck B (ctShift pc x k) (v * 2 ^ k) ∧ (ctShift pc x k).length = x.length + k :=
  ⟨ctShift_valid st hx k, length_ctShift x k⟩

example : Valid Demo.ck (2 ^ 53) (ctOpp Demo.scheme (ctShift Demo.cloud (Demo.encVec [0, 1, 0, -1]) 3)) 48 :=
  (C10_opp Demo.st (C11_shift Demo.st Demo.validm6 3).1).1.congr (by norm_num)

/-- **C12.** Adding a plaintext constant, for every `i64` but the most negative one. -/
theorem C12_add_const (st : Setting S ck pc B D) {x : Ctxt S.C} {v : Int} (hx : Valid ck B x v)
    (k : Int) (hk : -2 ^ 63 < k ∧ k < 2 ^ 63) :
    Yields (ctAddConst S pc x k) (fun z => Valid ck B z (v + k)) :=
  (ctAddConst_valid st hx hk.1 hk.2).mono fun _ h => h.1

/-- **C12**, the exception: for `-2^63` a debug build panics … -/
theorem C12_add_const_min_debug (hb : pc.build = .debug) (x : Ctxt S.C) :
    Fails (ctAddConst S pc x (-2 ^ 63)) (.panic .overflow) := by
  unfold ctAddConst addConstImpl
  apply Fails.call_panic
  rw [if_neg (by norm_num), hb]
  exact Fails.bind (Fails.panic _)

/-- … and a release build silently leaves the value unchanged. -/
theorem C12_add_const_min_release (hb : pc.build = .release) {x : Ctxt S.C} {v : Int}
    (hx : Valid ck B x v) :
    Yields (ctAddConst S pc x (-2 ^ 63)) (fun z => Valid ck B z v) := by
  unfold ctAddConst addConstImpl
  apply Yields.call
  rw [if_neg (by norm_num), hb]
  refine Yields.bind (P := fun a => a = -2 ^ 63) ((Returns.pure _).yields (by decide +kernel)) ?_
  rintro _ rfl
  have h0 : addConstLen (BitVec.ofInt 64 (-2 ^ 63)) = 0 := by decide +kernel
  simp only [h0, List.range_zero, List.map_nil]
  by_cases hz : rzero x = x.length
  · refine ((addSub_left_zero (isAdd := true) hz).call).yields ?_
    exact Valid.nil.congr (hx.zero_of_trivZero hz).symm
  · exact ((addSub_right_zero (isAdd := true) hz rfl).call).yields hx

example : Yields (ctAddConst Demo.scheme Demo.cloud (Demo.encVec [1, 0, 1]) (-1000))
    (fun z => Valid Demo.ck (2 ^ 53) z (-995)) :=
  (C12_add_const Demo.st Demo.valid5 (-1000) (by norm_num)).mono fun _ h => h.congr (by norm_num)

end
end Parm
