import Verif.Props.Program

/-!
# The plaintext instance of the interface: property C49
-/

namespace Parm

/-- values of type `i64` -/
def IsI64 (x : Int) : Prop := -2 ^ 63 ≤ x ∧ x < 2 ^ 63

/-- shift amounts below 64 and rounding positions below 63 -/
def Instr.i64Positions : Instr → Prop
  | .shift _ k => k < 64
  | .roundAt _ p => p ≤ 62
  | _ => True

instance (i : Instr) : Decidable i.i64Positions := by
  cases i <;> unfold Instr.i64Positions <;> infer_instance

/-- the instruction is a shift, which loses high bits silently in both builds -/
def Instr.isShift : Instr → Bool
  | .shift _ _ => true
  | _ => false

theorem wrapI64_of_isI64 {x : Int} (h : IsI64 x) : wrapI64 x = x := by
  unfold wrapI64
  apply Int.bmod_eq_of_le <;> unfold IsI64 at h <;> omega

theorem i64Op_fits (b : Build) {x : Int} (h : IsI64 x) : Returns (i64Op b x) x 0 := by
  unfold i64Op
  rw [if_pos (inI64_iff.2 h)]
  exact Returns.pure _

theorem i64Op_release (x : Int) : Returns (i64Op .release x) (wrapI64 x) 0 := by
  by_cases h : IsI64 x
  · exact (i64Op_fits _ h).congr (wrapI64_of_isI64 h).symm rfl
  · unfold i64Op
    rw [if_neg (fun e => h (inI64_iff.1 e))]
    exact Returns.pure _

theorem i64Op_overflow {x : Int} (h : ¬ IsI64 x) : Fails (i64Op .debug x) (.panic .overflow) := by
  unfold i64Op
  rw [if_neg (fun e => h (inI64_iff.1 e))]
  exact fun _ => rfl

theorem i64Shl_spec (b : Build) (x : Int) {k : Nat} (hk : k < 64) :
    Returns (i64Shl b x k) (wrapI64 (x * 2 ^ k)) 0 := by
  unfold i64Shl
  refine Returns.bind0 (a := k) ?_ (Returns.pure _)
  unfold shAmt64
  rw [if_pos hk]
  exact Returns.pure _

/-- the rounding formula of the code: clear the low bits, add bit `p-1` shifted once -/
theorem i64RoundAt_eq (b : Build) {x : Int} (hx : IsI64 x) {p : Nat} (hp0 : p ≠ 0) (hp : p ≤ 62) :
    i64RoundAt b x p = i64Op b ((x + 2 ^ (p - 1)) / 2 ^ p * 2 ^ p) := by
  unfold i64RoundAt
  rw [if_neg hp0, if_neg (by omega)]
  obtain ⟨q, rfl⟩ : ∃ q, p = q + 1 := ⟨p - 1, by omega⟩
  simp only [Nat.add_sub_cancel]
  have hM : (2 : Int) ^ (q + 1) = 2 * 2 ^ q := by rw [pow_succ]; ring
  have hE : (2 : Int) ^ 63 = 2 ^ (62 - q) * (2 * 2 ^ q) := by
    rw [← hM, ← pow_add]; congr 1; omega
  have hle : (2 : Int) * 2 ^ q ≤ 2 ^ 62 := by
    rw [← hM]; exact pow_le_pow_right₀ (by norm_num) hp
  have hpos : (0 : Int) < 2 ^ q := by positivity
  unfold IsI64 at hx
  rw [hM]
  revert hE hle hpos
  generalize (2 : Int) ^ q = K
  generalize (2 : Int) ^ (62 - q) = E
  intro hE hle hpos
  obtain ⟨a, ha⟩ : ∃ a, a = x / (2 * K) := ⟨_, rfl⟩
  obtain ⟨r, hr⟩ : ∃ r, r = x % (2 * K) := ⟨_, rfl⟩
  have hx' : 2 * K * a + r = x := by rw [ha, hr]; exact Int.mul_ediv_add_emod x (2 * K)
  have hr0 : 0 ≤ r := by rw [hr]; exact Int.emod_nonneg _ (by omega)
  have hr1 : r < 2 * K := by rw [hr]; exact Int.emod_lt_of_pos _ (by omega)
  have hlo : -2 ^ 63 ≤ 2 * K * a := by
    have : -E ≤ a := by
      rw [ha]
      refine Int.le_ediv_of_mul_le (by omega) ?_
      have : -E * (2 * K) = -2 ^ 63 := by rw [hE]; ring
      omega
    have h2 : -E * (2 * K) ≤ a * (2 * K) := Int.mul_le_mul_of_nonneg_right this (by omega)
    have h3 : -E * (2 * K) = -2 ^ 63 := by rw [hE]; ring
    have h4 : 2 * K * a = a * (2 * K) := by ring
    omega
  rw [← hr]
  have e1 : x - r = 2 * K * a := by omega
  rw [e1]
  have hb : (i64Op b (2 * K * a)) = (pure (2 * K * a) : M Int) := by
    unfold i64Op
    rw [if_pos (inI64_iff.2 ⟨hlo, by omega⟩)]
  rw [hb]
  show i64Op b (2 * K * a + wrapI64 (x / K % 2 * K * 2)) = _
  congr 1
  rcases Int.lt_or_le r K with h | h
  · have d1 : x / K = 2 * a := by
      rw [← hx', show 2 * K * a + r = r + K * (2 * a) by ring, Int.add_mul_ediv_left _ _ (by omega),
        Int.ediv_eq_zero_of_lt hr0 h, zero_add]
    have d2 : (x + K) / (2 * K) = a := by
      rw [← hx', show 2 * K * a + r + K = (r + K) + (2 * K) * a by ring, Int.add_mul_ediv_left _ _ (by omega),
        Int.ediv_eq_zero_of_lt (by omega) (by omega), zero_add]
    have d3 : 2 * a % 2 = 0 := by omega
    rw [d1, d2, d3, show (0 : Int) * K * 2 = 0 by ring, show wrapI64 0 = 0 from rfl]
    ring
  · have d1 : x / K = 2 * a + 1 := by
      rw [← hx', show 2 * K * a + r = (r - K) + K * (2 * a + 1) by ring, Int.add_mul_ediv_left _ _ (by omega),
        Int.ediv_eq_zero_of_lt (by omega) (by omega), zero_add]
    have d2 : (x + K) / (2 * K) = a + 1 := by
      rw [← hx', show 2 * K * a + r + K = (r - K) + (2 * K) * (a + 1) by ring,
        Int.add_mul_ediv_left _ _ (by omega), Int.ediv_eq_zero_of_lt (by omega) (by omega), zero_add]
    have d3 : (2 * a + 1) % 2 = 1 := by omega
    rw [d1, d2, d3, wrapI64_of_isI64 (x := 1 * K * 2) ⟨by omega, by omega⟩]
    ring

theorem idx_pure {r : List Int} {i : Nat} (h : i < r.length) : idx r i = (pure (r.getD i 0) : M Int) := by
  unfold idx
  rw [List.getElem?_eq_getElem h]
  simp [List.getD_eq_getElem?_getD, h]

theorem getD_isI64 {r : List Int} (hr : ∀ v ∈ r, IsI64 v) (i : Nat) : IsI64 (r.getD i 0) := by
  rw [List.getD_eq_getElem?_getD]
  by_cases h : i < r.length
  · rw [List.getElem?_eq_getElem h]
    exact hr _ (List.getElem_mem h)
  · rw [List.getElem?_eq_none (by omega)]
    exact ⟨by decide, by decide⟩

theorem i64Op_pure (b : Build) {x : Int} (h : IsI64 x) : i64Op b x = pure x := by
  unfold i64Op
  rw [if_pos (inI64_iff.2 h)]

/-- every operation other than a shift is one checked operation on the exact result -/
theorem Instr.run_i64 (b : Build) (ins : Instr) {r : List Int} (hr : ∀ v ∈ r, IsI64 v) (hwf : ins.wf r.length)
    (hp : ins.i64Positions) :
    ins.run (arithI64 b) r = if ins.isShift then pure (wrapI64 (ins.val r)) else i64Op b (ins.val r) := by
  have g := getD_isI64 hr
  cases ins with
  | zero =>
    have : IsI64 0 := ⟨by decide, by decide⟩
    exact (i64Op_pure b this).symm
  | opp i => simp only [Instr.run, idx_pure hwf, pure_bind]; rfl
  | shift i k =>
    simp only [Instr.run, idx_pure hwf, pure_bind]
    have hp : k < 64 := hp
    show i64Shl b _ k = _
    unfold i64Shl shAmt64
    rw [if_pos hp]
    rfl
  | add i j => simp only [Instr.run, idx_pure hwf.1, idx_pure hwf.2, pure_bind]; rfl
  | sub i j => simp only [Instr.run, idx_pure hwf.1, idx_pure hwf.2, pure_bind]; rfl
  | addConst i k => simp only [Instr.run, idx_pure hwf.1, pure_bind]; rfl
  | scalarMul k i => simp only [Instr.run, idx_pure hwf.1, pure_bind]; rfl
  | sgn i =>
    simp only [Instr.run, idx_pure hwf, pure_bind]
    have : IsI64 (r.getD i 0).sign := by
      unfold IsI64
      rcases Int.lt_trichotomy (r.getD i 0) 0 with h | h | h
      · rw [Int.sign_eq_neg_one_of_neg h]; omega
      · rw [h]; decide
      · rw [Int.sign_eq_one_of_pos h]; omega
    exact (i64Op_pure b this).symm
  | max i j =>
    simp only [Instr.run, idx_pure hwf.1, idx_pure hwf.2, pure_bind]
    have : IsI64 (Max.max (r.getD i 0) (r.getD j 0)) := by
      have := g i; have := g j
      unfold IsI64 at *
      omega
    refine Eq.trans ?_ (i64Op_pure b this).symm
    show pure (if r.getD i 0 ≤ r.getD j 0 then r.getD j 0 else r.getD i 0) = _
    congr 1
  | relu i =>
    simp only [Instr.run, idx_pure hwf, pure_bind]
    have : IsI64 (Max.max 0 (r.getD i 0)) := by
      have := g i
      unfold IsI64 at *
      omega
    refine Eq.trans ?_ (i64Op_pure b this).symm
    show pure (if 0 ≤ r.getD i 0 then r.getD i 0 else 0) = _
    congr 1
  | mul i j => simp only [Instr.run, idx_pure hwf.1, idx_pure hwf.2, pure_bind]; rfl
  | squ i =>
    simp only [Instr.run, idx_pure hwf, pure_bind]
    show i64Op b (r.getD i 0 * r.getD i 0) = i64Op b (r.getD i 0 ^ 2)
    rw [sq]
  | roundAt i p =>
    simp only [Instr.run, idx_pure hwf, pure_bind]
    have hp : p ≤ 62 := hp
    show i64RoundAt b (r.getD i 0) p = i64Op b (if p = 0 then r.getD i 0 else _)
    by_cases h0 : p = 0
    · rw [if_pos h0, i64Op_pure b (g i), h0]
      rfl
    · rw [if_neg h0, i64RoundAt_eq b (g i) h0 hp]

/-- **C49**, release build: for every `i64` input the result is the exact integer result reduced
modulo `2^64` (as a signed number). -/
theorem C49_release (ins : Instr) {r : List Int} (hr : ∀ v ∈ r, IsI64 v) (hwf : ins.wf r.length)
    (hp : ins.i64Positions) : Returns (ins.run (arithI64 .release) r) (wrapI64 (ins.val r)) 0 := by
  rw [ins.run_i64 .release hr hwf hp]
  split_ifs
  · exact Returns.pure _
  · exact i64Op_release _

/-- **C49.** Whenever the exact integer result fits `i64`, both builds return it. -/
theorem C49_exact (b : Build) (ins : Instr) {r : List Int} (hr : ∀ v ∈ r, IsI64 v) (hwf : ins.wf r.length)
    (hp : ins.i64Positions) (hfit : IsI64 (ins.val r)) : Returns (ins.run (arithI64 b) r) (ins.val r) 0 := by
  rw [ins.run_i64 b hr hwf hp]
  split_ifs
  · exact (Returns.pure _).congr (wrapI64_of_isI64 hfit) rfl
  · exact i64Op_fits b hfit

/-- **C49**, debug build: an operation other than a shift whose exact result does not fit `i64`
panics. -/
theorem C49_debug_overflow (ins : Instr) {r : List Int} (hr : ∀ v ∈ r, IsI64 v) (hwf : ins.wf r.length)
    (hp : ins.i64Positions) (hs : ins.isShift = false) (hfit : ¬ IsI64 (ins.val r)) :
    Fails (ins.run (arithI64 .debug) r) (.panic .overflow) := by
  rw [ins.run_i64 .debug hr hwf hp, hs]
  exact i64Op_overflow hfit

/-- **C49**, shifts lose high bits silently, even in a debug build; only the amount is checked. -/
theorem C49_shift (b : Build) (x : Int) (k : Nat) :
    (k < 64 → Returns ((arithI64 b).shift x k) (wrapI64 (x * 2 ^ k)) 0) ∧
    (64 ≤ k → Fails ((arithI64 .debug).shift x k) (.panic .overflow) ∧
      Returns ((arithI64 .release).shift x k) (wrapI64 (x * 2 ^ (k % 64))) 0) := by
  refine ⟨fun hk => i64Shl_spec b x hk, fun hk => ⟨fun s => ?_, ?_⟩⟩
  · show i64Shl .debug x k s = _
    unfold i64Shl shAmt64
    rw [if_neg (by omega)]
    rfl
  · show Returns (i64Shl .release x k) _ 0
    unfold i64Shl shAmt64
    rw [if_neg (by omega)]
    exact (Returns.pure _).bind0 (Returns.pure _)

/-- **C49**, rounding positions from 63 on panic (whatever the build), while the encrypted
`round_at` returns the rounded value (C19). -/
theorem C49_round_panics (b : Build) (x : Int) {p : Nat} (hp : 63 ≤ p) :
    Fails ((arithI64 b).roundAt x p) (.panic .roundPos) := by
  intro s
  show i64RoundAt b x p s = _
  unfold i64RoundAt
  rw [if_neg (by omega), if_pos (by omega)]
  rfl

/-- **C49**, the operations without refreshing, which on integers are addition and subtraction: the release build returns
the result modulo `2^64`, and the debug build the exact one or panics. -/
theorem C49_noisy (x y : Int) :
    Returns ((arithI64 .release).addNoisy x y) (wrapI64 (x + y)) 0 ∧ Returns ((arithI64 .release).subNoisy x y) (wrapI64 (x - y)) 0 ∧
    (IsI64 (x + y) → Returns ((arithI64 .debug).addNoisy x y) (x + y) 0) ∧
    (¬ IsI64 (x + y) → Fails ((arithI64 .debug).addNoisy x y) (.panic .overflow)) ∧
    (IsI64 (x - y) → Returns ((arithI64 .debug).subNoisy x y) (x - y) 0) ∧
    (¬ IsI64 (x - y) → Fails ((arithI64 .debug).subNoisy x y) (.panic .overflow)) :=
  ⟨i64Op_release _, i64Op_release _, fun h => i64Op_fits .debug h, fun h => i64Op_overflow h, fun h => i64Op_fits .debug h,
    fun h => i64Op_overflow h⟩

/-- **C49**, programs: if all exact intermediate results fit `i64`, both builds return them. -/
theorem C49_program (b : Build) : ∀ (p : List Instr) {r : List Int}, wfProg p r.length →
    (∀ ins ∈ p, ins.i64Positions) → (∀ v ∈ valProg p r, IsI64 v) →
    Returns (runProg (arithI64 b) p r) (valProg p r) 0
  | [], r, _, _, _ => Returns.pure _
  | ins :: is, r, hwf, hp, hv => by
    have hsub : ∀ (p : List Instr) (r : List Int), ∀ v ∈ r, v ∈ valProg p r := by
      intro p
      induction p with
      | nil => intro r v h; exact h
      | cons i is ih => intro r v h; exact ih _ v (List.mem_append_left _ h)
    have hr : ∀ v ∈ r, IsI64 v := fun v h => hv v (hsub (ins :: is) r v h)
    have hfit : IsI64 (ins.val r) := hv _ (hsub is (r ++ [ins.val r]) _ (by simp))
    exact (C49_exact b ins hr hwf.1 (hp ins (by simp)) hfit).bind0
      (C49_program b is (by simpa using hwf.2) (fun i hi => hp i (by simp [hi])) hv)

/-- **C49**, the plaintext run as a reference: if a debug run of a program without shifts returns,
then what it returns are the exact integers. -/
theorem C49_debug_exact : ∀ (p : List Instr) {r out : List Int} {n : Nat}, wfProg p r.length → (∀ v ∈ r, IsI64 v) →
    (∀ ins ∈ p, ins.isShift = false) → Returns (runProg (arithI64 .debug) p r) out n →
    out = valProg p r ∧ ∀ v ∈ out, IsI64 v
  | [], r, out, n, _, hr, _, h => by
    have := (h.unique (Returns.pure r)).1
    subst this
    exact ⟨rfl, hr⟩
  | ins :: is, r, out, n, hwf, hr, hs, h => by
    by_cases hp : ins.i64Positions
    · by_cases hfit : IsI64 (ins.val r)
      · have h2 : Returns (runProg (arithI64 .debug) is (r ++ [ins.val r])) out n := by
          have e : ins.run (arithI64 .debug) r = pure (ins.val r) := by
            rw [ins.run_i64 .debug hr hwf.1 hp, hs ins (by simp), if_neg (by decide)]
            exact i64Op_pure _ hfit
          unfold runProg at h
          rwa [e, pure_bind] at h
        have hr' : ∀ v ∈ r ++ [ins.val r], IsI64 v := by
          intro v hv
          rcases List.mem_append.1 hv with hv | hv
          · exact hr v hv
          · rw [List.mem_singleton.1 hv]; exact hfit
        exact C49_debug_exact is (by simpa using hwf.2) hr' (fun i hi => hs i (by simp [hi])) h2
      · exact absurd (Fails.bind (C49_debug_overflow ins hr hwf.1 hp (hs ins (by simp)) hfit)) fun hf => h.not_fails hf
    · have hf : Fails (ins.run (arithI64 .debug) r) (.panic .roundPos) := by
        cases ins with
        | roundAt i p =>
          have hp : ¬ p ≤ 62 := hp
          have hwf : i < r.length := hwf.1
          simp only [Instr.run, idx_pure hwf, pure_bind]
          exact C49_round_panics .debug _ (by omega)
        | shift i k => exact absurd (hs _ List.mem_cons_self) (by simp [Instr.isShift])
        | _ => exact absurd trivial hp
      exact absurd (Fails.bind hf) fun hf => h.not_fails hf

section
variable {S : Scheme} {ck : ClientKey S} {pc : Cloud} {B D : Nat}

/-- **C49** with **C44**: a debug run of a program (without shifts) on `i64` values predicts the
encrypted run: if it returns `out`, the same program on valid ciphertexts of the inputs returns
valid ciphertexts of `out`, or stops because a factor has more than 32 words. -/
theorem C49_predicts (st : Setting S ck pc B D) (p : List Instr) (hs : ScalarsOk pc p)
    (hns : ∀ ins ∈ p, ins.isShift = false) {xs : List (Ctxt S.C)} {vs out : List Int} {n : Nat}
    (h : ValidRegs ck B xs vs) (hi : ∀ v ∈ vs, IsI64 v) (hwf : wfProg p xs.length)
    (hrun : Returns (runProg (arithI64 .debug) p vs) out n) :
    Yields (runProg (arithCt S pc) p xs) (fun zs => ValidRegs ck B zs out) ∨
    Fails (runProg (arithCt S pc) p xs) (.panic (.expect .mulTooLong)) ∨
    Fails (runProg (arithCt S pc) p xs) (.panic (.expect .squTooLong)) := by
  obtain ⟨rfl, _⟩ := C49_debug_exact p (by rw [h.1]; exact hwf) hi hns hrun
  exact C44_only_long_factors_fail st p hs h hwf

end

/-! ### Cases -/

/-- a program without shifts -/
def plainProg : List Instr :=
  [.add 0 1, .squ 0, .mul 2 3, .scalarMul 7 0, .max 1 5, .sub 4 6, .roundAt 7 3, .sgn 8, .addConst 9 (-100),
   .relu 10, .opp 7]

example : Returns (runProg (arithI64 .debug) plainProg [5, -6])
    [5, -6, -1, 25, -25, 35, 35, -60, -56, -1, -101, 0, 60] 0 :=
  C49_program .debug plainProg (by decide) (by decide) (by unfold IsI64; decide)

example : Yields (runProg (arithCt Demo.scheme Demo.cloud12) plainProg [Demo.encVec [1, 0, 1], Demo.encVec [0, 1, 0, -1]])
      (fun zs => ValidRegs Demo.ck (2 ^ 53) zs [5, -6, -1, 25, -25, 35, 35, -60, -56, -1, -101, 0, 60]) ∨
    Fails (runProg (arithCt Demo.scheme Demo.cloud12) plainProg [Demo.encVec [1, 0, 1], Demo.encVec [0, 1, 0, -1]])
      (.panic (.expect .mulTooLong)) ∨
    Fails (runProg (arithCt Demo.scheme Demo.cloud12) plainProg [Demo.encVec [1, 0, 1], Demo.encVec [0, 1, 0, -1]])
      (.panic (.expect .squTooLong)) :=
  C49_predicts Demo.st12 plainProg (Or.inr Demo.shipped12) (by decide) (vs := [5, -6])
    ⟨rfl, fun i hi => by
      have : i = 0 ∨ i = 1 := by simp at hi; omega
      rcases this with rfl | rfl
      · exact Demo.valid5
      · exact Demo.validm6⟩ (by unfold IsI64; decide) (by decide)
    (C49_program .debug plainProg (by decide) (by decide) (by unfold IsI64; decide))

/-- `2^62 + 2^62` overflows; `2^62 << 1` silently becomes `-2^63`; rounding `2^63 - 1` overflows. -/
example : Fails ((Instr.add 0 0).run (arithI64 .debug) [2 ^ 62]) (.panic .overflow) ∧
    Returns ((Instr.shift 0 1).run (arithI64 .debug) [2 ^ 62]) (-2 ^ 63) 0 ∧
    Returns ((Instr.roundAt 0 4).run (arithI64 .release) [2 ^ 63 - 1]) (-2 ^ 63) 0 :=
  ⟨C49_debug_overflow (.add 0 0) (by unfold IsI64; decide) (by decide) trivial rfl (by unfold IsI64; decide),
    Returns.run fun s => ⟨s.region, rfl⟩,
    (C49_release (.roundAt 0 4) (r := [2 ^ 63 - 1]) (by unfold IsI64; decide) (by decide) (by decide)).congr
      (by decide) rfl⟩

end Parm
