import Verif.Model.Readme
import Verif.Props.Addition
import Verif.Props.Encryption
import Verif.Props.Schedule
import Verif.Proof.Ensures

/-!
# The example of the README: property C75
-/

namespace Parm
section
variable {S : Scheme} {ck : ClientKey S} {pc : Cloud} {B D : Nat}

/-- encryption of a vector of digits: fully encrypted, as long as the vector, of its value -/
theorem readme_encrypt (st : Setting S ck pc B D) (seed : Nat → Nat) {l : List Int} (h : ∀ d ∈ l, IsDigit d) :
    ∃ x, Returns (parmEncryptFromVec ck pc.msgMod seed 0 l) x 0 ∧ AllEncrypted x ∧ x.length = l.length ∧
      Valid ck B x (value l) := by
  refine ⟨_, parmEncryptFromVec_ok seed pc.msgMod l 0 h, ?_, by simp, ?_⟩
  · intro w hw
    obtain ⟨i, _, rfl⟩ := List.mem_map.1 hw
    exact ⟨⟨_, rfl⟩, st.msgMod⟩
  · obtain ⟨x, n, hx, hl, hh, _⟩ := parmEncryptFromVec_valid st seed h
    obtain ⟨rfl, rfl⟩ := hx.unique (parmEncryptFromVec_ok seed pc.msgMod l 0 h)
    refine ⟨_, hh, ?_⟩
    rw [hl]
    rfl

/-- the sum of two fully encrypted ciphertexts, none of them empty -/
theorem readme_add (st : Setting S ck pc B D) {x y : Ctxt S.C} {vx vy : Int} (hx : AllEncrypted x) (hy : AllEncrypted y)
    (hx0 : x ≠ []) (hy0 : y ≠ []) (gx : Valid ck B x vx) (gy : Valid ck B y vy) :
    ∃ z, Returns (ctAdd S pc x y) z (2 * max x.length y.length) ∧ z.length = max x.length y.length + 1 ∧
      Valid ck B z (vx + vy) := by
  have ne : ∀ {x : Ctxt S.C}, AllEncrypted x → ∀ i (h : i < x.length), ¬ TrivialZero x[i] := by
    intro x hx i h ht
    obtain ⟨⟨c, hc⟩, _⟩ := hx _ (List.getElem_mem h)
    rw [TrivialZero, hc] at ht; cases ht
  have strip : ∀ {x : Ctxt S.C}, AllEncrypted x → StrippedLen x x.length := fun hx =>
    ⟨le_rfl, fun i h h' => by omega, fun h => ⟨by omega, ne hx _ _⟩⟩
  have low : ∀ {x : Ctxt S.C}, AllEncrypted x → x ≠ [] → LowZeros x 0 := fun hx h =>
    ⟨fun i h h' => by omega, List.length_pos_iff.2 h, ne hx _ _⟩
  have nz : ∀ {x : Ctxt S.C}, AllEncrypted x → x ≠ [] → ¬ ∀ w ∈ x, TrivialZero w := fun hx h0 h =>
    ne hx 0 (List.length_pos_iff.2 h0) (h _ (List.getElem_mem _))
  obtain ⟨z, n, hz, _, hn⟩ := C09_add_cost st.msgMod st.carryMod (fun w hw => (hx w hw).2) (strip hx) (strip hy)
    (low hx hx0) (low hy hy0) true true
  obtain ⟨z', n', hz', hl⟩ := C08_length st.msgMod st.carryMod (fun w hw => (hx w hw).2) (nz hx hx0) (nz hy hy0)
    (strip hx) (strip hy) true true
  obtain ⟨rfl, rfl⟩ := hz.unique hz'
  obtain ⟨z', n', hz', hv⟩ := C04_add st gx gy
  obtain ⟨rfl, rfl⟩ := hz.unique hz'
  have hn' : n = 2 * max x.length y.length := by
    have := hn fun i _ hi => by
      rcases lt_max_iff.1 hi with h | h
      · exact Or.inl ⟨h, (hx _ (List.getElem_mem h)).1⟩
      · exact Or.inr ⟨h, (hy _ (List.getElem_mem h)).1⟩
    simpa using this
  subst hn'
  exact ⟨z, hz, hl, hv⟩

/-- the expected sum does not overflow -/
theorem readme_expected (build : Build) {a b : List Int} (ha : ∀ d ∈ a, IsDigit d) (hb : ∀ d ∈ b, IsDigit d)
    (hl : a.length ≤ 62 ∧ b.length ≤ 62 ∨ a = [] ∧ b.length ≤ 63 ∨ b = [] ∧ a.length ≤ 63) :
    Returns (i64Op build (value a + value b)) (value a + value b) 0 := by
  have h1 := value_abs_lt ha
  have h2 := value_abs_lt hb
  have key : inI64 (value a + value b) = true := by
    unfold inI64
    simp only [Bool.and_eq_true, decide_eq_true_eq]
    have p : ∀ {m n : Nat}, m ≤ n → 2 ^ m ≤ 2 ^ n := fun h => Nat.pow_le_pow_right (by norm_num) h
    rcases hl with ⟨h, h'⟩ | ⟨rfl, h⟩ | ⟨rfl, h⟩
    · have := p h; have := p h'; norm_num at *; omega
    · have := p h; rw [value_nil] at *; norm_num at *; omega
    · have := p h; rw [value_nil] at *; norm_num at *; omega
  unfold i64Op
  rw [if_pos key]
  exact Returns.pure _

/-- **C75.** The example of the README, for arbitrary vectors of digits: for all keys and randomness, in both builds and
under every schedule, the program prints the exact sum, `PASS`, and the exact sum again, if both vectors have at most 62
digits; with exactly two bootstraps for every digit of the longer vector, provided none of the two is empty. -/
theorem C75_readme_pass (st : Setting S ck pc B D) (seedA seedB : Nat → Nat) {a b : List Int}
    (ha : ∀ d ∈ a, IsDigit d) (hb : ∀ d ∈ b, IsDigit d) (ha0 : a ≠ []) (hb0 : b ≠ []) (hla : a.length ≤ 62) (hlb : b.length ≤ 62) :
    Returns (readmeMain S ck pc seedA seedB a b) ⟨value a + value b, true, value a + value b⟩
      (2 * max a.length b.length) := by
  obtain ⟨x, hx, ex, lx, vx⟩ := readme_encrypt st seedA ha
  obtain ⟨y, hy, ey, ly, vy⟩ := readme_encrypt st seedB hb
  have nx : x ≠ [] := by rintro rfl; exact ha0 (List.length_eq_zero_iff.1 (by simpa using lx.symm))
  have ny : y ≠ [] := by rintro rfl; exact hb0 (List.length_eq_zero_iff.1 (by simpa using ly.symm))
  obtain ⟨z, hz, lz, vz⟩ := readme_add st ex ey nx ny vx vy
  rw [lx, ly] at hz lz
  unfold readmeMain
  refine hx.bind0 <| hy.bind0 <| (convertFromVec_ok _ (by omega) ha).bind0 <| (convertFromVec_ok _ (by omega) hb).bind0 ?_
  refine (hz.bind ?_ : Returns _ _ (2 * max a.length b.length + 0))
  refine (vz.decrypt st pc.build (by omega)).bind0 <| (readme_expected _ ha hb (Or.inl ⟨hla, hlb⟩)).bind0 ?_
  exact (Returns.pure _).congr (by simp) rfl

/-- **C75**, an empty vector: the other one may have 63 digits, and there is no bootstrap. -/
theorem C75_readme_empty (st : Setting S ck pc B D) (seedA seedB : Nat → Nat) {a b : List Int}
    (ha : ∀ d ∈ a, IsDigit d) (hb : ∀ d ∈ b, IsDigit d) (h : a = [] ∨ b = []) (hla : a.length ≤ 63) (hlb : b.length ≤ 63) :
    Returns (readmeMain S ck pc seedA seedB a b) ⟨value a + value b, true, value a + value b⟩ 0 := by
  obtain ⟨x, hx, ex, lx, vx⟩ := readme_encrypt st seedA ha
  obtain ⟨y, hy, ey, ly, vy⟩ := readme_encrypt st seedB hb
  have key : ∃ z, Returns (ctAdd S pc x y) z 0 ∧ z.length ≤ 63 := by
    rcases h with rfl | rfl
    · have : x = [] := List.length_eq_zero_iff.1 (by simpa using lx)
      subst this
      exact ⟨_, (C08_left_zero (pc := pc) (x := []) (by simp) true).1, by omega⟩
    · have : y = [] := List.length_eq_zero_iff.1 (by simpa using ly)
      subst this
      by_cases hx0 : ∀ w ∈ x, TrivialZero w
      · exact ⟨_, (C08_left_zero (pc := pc) hx0 true).1, by simp⟩
      · exact ⟨_, C08_right_zero (pc := pc) hx0 (by simp) true true, by omega⟩
  obtain ⟨z, hz, lz⟩ := key
  obtain ⟨z', n', hz', vz⟩ := C04_add st vx vy
  obtain ⟨rfl, _⟩ := hz.unique hz'
  unfold readmeMain
  refine hx.bind0 <| hy.bind0 <| (convertFromVec_ok _ hla ha).bind0 <| (convertFromVec_ok _ hlb hb).bind0 <| hz.bind0 ?_
  refine (vz.decrypt st pc.build lz).bind0 <| (readme_expected _ ha hb (Or.inr ?_)).bind0 ?_
  · rcases h with h | h
    · exact Or.inl ⟨h, hlb⟩
    · exact Or.inr ⟨h, hla⟩
  exact (Returns.pure _).congr (by simp) rfl

/-- **C75**, longer vectors: from 63 digits on the program ends with the error that the ciphertext (or the vector) is too
long. -/
theorem C75_readme_too_long (st : Setting S ck pc B D) (seedA seedB : Nat → Nat) {a b : List Int}
    (ha : ∀ d ∈ a, IsDigit d) (hb : ∀ d ∈ b, IsDigit d)
    (h : a ≠ [] ∧ b ≠ [] ∧ (63 ≤ a.length ∨ 63 ≤ b.length) ∨ 63 < a.length ∨ 63 < b.length) :
    Fails (readmeMain S ck pc seedA seedB a b) (.err .ctTooLong) := by
  obtain ⟨x, hx, ex, lx, vx⟩ := readme_encrypt st seedA ha
  obtain ⟨y, hy, ey, ly, vy⟩ := readme_encrypt st seedB hb
  have long : ∀ {l : List Int}, 63 < l.length → Fails (convertFromVec pc.build l) (.err .ctTooLong) := by
    intro l hl
    unfold convertFromVec parmCtMaxlen
    rw [if_pos hl]
    exact Fails.err _
  unfold readmeMain
  refine hx.bind_fails <| hy.bind_fails ?_
  by_cases hla : 63 < a.length
  · exact (long hla).bind
  refine (convertFromVec_ok pc.build (by omega) ha).bind_fails ?_
  by_cases hlb : 63 < b.length
  · exact (long hlb).bind
  refine (convertFromVec_ok pc.build (by omega) hb).bind_fails ?_
  obtain ⟨ha0, hb0, h⟩ : a ≠ [] ∧ b ≠ [] ∧ (63 ≤ a.length ∨ 63 ≤ b.length) := by tauto
  have nx : x ≠ [] := by rintro rfl; exact ha0 (List.length_eq_zero_iff.1 (by simpa using lx.symm))
  have ny : y ≠ [] := by rintro rfl; exact hb0 (List.length_eq_zero_iff.1 (by simpa using ly.symm))
  obtain ⟨z, hz, lz, vz⟩ := readme_add st ex ey nx ny vx vy
  exact hz.bind_fails (parmDecrypt_too_long ck pc.build (by omega)).bind

/-- **C75**, other vectors: an entry outside {-1, 0, 1} is refused before anything is computed. -/
theorem C75_readme_reject (st : Setting S ck pc B D) (seedA seedB : Nat → Nat) {a b : List Int}
    (h : ¬ ∀ d ∈ a ++ b, IsDigit d) : Fails (readmeMain S ck pc seedA seedB a b) (.err .encAlphabet) := by
  unfold readmeMain
  by_cases ha : ∀ d ∈ a, IsDigit d
  · obtain ⟨x, hx, _⟩ := readme_encrypt st seedA ha
    refine hx.bind_fails (parmEncryptFromVec_err seedB pc.msgMod b 0 fun hb => h fun d hd => ?_).bind
    rcases List.mem_append.1 hd with g | g
    · exact ha d g
    · exact hb d g
  · exact (parmEncryptFromVec_err seedA pc.msgMod a 0 ha).bind

/-- **C75**, the verdict: whatever the scheme, the keys and the cloud do, a printed line tells the exact sum as the expected
one, and `PASS` is printed exactly if the decrypted sum is the exact one. -/
theorem C75_verdict {S : Scheme} (ck : ClientKey S) (pc : Cloud) (seedA seedB : Nat → Nat) {a b : List Int}
    (ha : ∀ d ∈ a, IsDigit d) (hb : ∀ d ∈ b, IsDigit d)
    (hl : a.length ≤ 62 ∧ b.length ≤ 62 ∨ a = [] ∧ b.length ≤ 63 ∨ b = [] ∧ a.length ≤ 63) :
    Ensures (readmeMain S ck pc seedA seedB a b) fun l =>
      l.expected = value a + value b ∧ (l.pass = true ↔ l.sum = value a + value b) := by
  have h63 : a.length ≤ 63 ∧ b.length ≤ 63 := by
    rcases hl with h | ⟨rfl, h⟩ | ⟨rfl, h⟩
    · omega
    · exact ⟨by simp, h⟩
    · exact ⟨h, by simp⟩
  have det : ∀ {α : Type} {m : M α} {v : α}, Returns m v 0 → Ensures m (· = v) := by
    intro α m v h s x s' e
    obtain ⟨r, rep, _, h⟩ := h s
    rw [e] at h
    cases h
    rfl
  unfold readmeMain
  refine (Ensures.trivial _).bind fun _ _ => (Ensures.trivial _).bind fun _ _ => ?_
  refine (det (convertFromVec_ok _ h63.1 ha)).bind fun va ea => (det (convertFromVec_ok _ h63.2 hb)).bind fun vb eb => ?_
  subst ea eb
  refine (Ensures.trivial _).bind fun _ _ => (Ensures.trivial _).bind fun _ _ => ?_
  refine (det (readme_expected _ ha hb hl)).bind fun e he => ?_
  subst he
  exact Ensures.pure ⟨rfl, by simp⟩

/-- **C75**, the vectors of the README: the program prints 581051028 twice and `PASS`, after 64 bootstraps. -/
theorem C75_readme (st : Setting S ck pc B D) (seedA seedB : Nat → Nat) :
    Returns (readmeMain S ck pc seedA seedB readmeA readmeB) ⟨581051028, true, 581051028⟩ 64 := by
  have e : value readmeA + value readmeB = 581051028 := by decide +kernel
  rw [← e]
  exact C75_readme_pass st seedA seedB (by unfold IsDigit readmeA; decide) (by unfold IsDigit readmeB; decide)
    (by simp [readmeA]) (by simp [readmeB]) (by simp [readmeA]) (by simp [readmeB])

/-- a scheme without noise whose bootstrap forgets everything -/
def forgetful : Scheme where
  C := BitVec 64
  add a b := a + b
  neg a := -a
  mulC a k := a * k
  addPt a p := a + p
  pbs _ _ := 0#64

def forgetfulKey : ClientKey forgetful where
  phase c := c
  encrypt _ mu := mu * 576460752303423488#64

/-- a case of `C75_verdict` in which the program says that it failed -/
example : ∃ s', readmeMain forgetful forgetfulKey Demo.cloud id id [1] [1] (St.init .seq) = .ok (⟨0, false, 2⟩, s') :=
  ⟨_, rfl⟩

/-- the hypotheses can be met: the noisy scheme of the examples, and vectors of different lengths -/
example : Returns (readmeMain Demo.scheme Demo.ck Demo.cloud id id [1, 0, 1] [0, 1, 0, -1]) ⟨-1, true, -1⟩ 8 :=
  C75_readme_pass Demo.st id id (by unfold IsDigit; decide) (by unfold IsDigit; decide) (by simp) (by simp) (by simp) (by simp)
example : Fails (readmeMain Demo.scheme Demo.ck Demo.cloud id id (List.replicate 63 1) [1]) (.err .ctTooLong) :=
  C75_readme_too_long Demo.st id id (by unfold IsDigit; decide) (by unfold IsDigit; decide)
    (Or.inl ⟨by simp, by simp, Or.inl (by simp)⟩)
example : Returns (readmeMain Demo.scheme Demo.ck Demo.cloud id id [] (List.replicate 63 1)) ⟨2 ^ 63 - 1, true, 2 ^ 63 - 1⟩ 0 :=
  (C75_readme_empty Demo.st id id (by simp) (b := List.replicate 63 1) (by unfold IsDigit; decide) (Or.inl rfl) (by simp)
    (by simp)).congr (by decide +kernel) rfl

end

end Parm
