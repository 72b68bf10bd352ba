import Verif.Proof.AddOps
import Verif.Model.Signum

/-!
# Signum, maximum, ReLU, rounding
-/

namespace Parm

/-! ### Signs of digit strings -/

/-- the high part decides the sign -/
theorem sign_high {A b : Int} {k : Nat} (hA : A.natAbs < 2 ^ k) :
    (A + 2 ^ k * b).sign = if b = 0 then A.sign else b.sign := by
  have hp : ((2 ^ k : Nat) : Int) = 2 ^ k := by push_cast; rfl
  split_ifs with h
  · subst h; simp
  · rcases lt_or_gt_of_ne h with h | h
    · have h1 : (2 : Int) ^ k * b ≤ 2 ^ k * (-1) := Int.mul_le_mul_of_nonneg_left (by omega) (by positivity)
      rw [Int.sign_eq_neg_one_of_neg h, Int.sign_eq_neg_one_of_neg (by omega)]
    · have h1 : (2 : Int) ^ k * 1 ≤ 2 ^ k * b := Int.mul_le_mul_of_nonneg_left (by omega) (by positivity)
      rw [Int.sign_eq_one_of_pos h, Int.sign_eq_one_of_pos (by omega)]

theorem isDigit_sign (a : Int) : IsDigit a.sign := by
  rcases lt_trichotomy a 0 with h | h | h
  · rw [Int.sign_eq_neg_one_of_neg h]; simp [IsDigit]
  · subst h; simp [IsDigit]
  · rw [Int.sign_eq_one_of_pos h]; simp [IsDigit]

/-- value of the `j`-th block of four digits -/
def block (e : Nat → Int) (j : Nat) : Int := valueN (fun i => e (4 * j + i)) 4

theorem block_range {e : Nat → Int} (he : ∀ i, IsDigit (e i)) (j : Nat) :
    -15 ≤ block e j ∧ block e j ≤ 15 := by
  have := valueN_abs_lt (d := fun i => e (4 * j + i)) (n := 4) (fun i _ => he _)
  unfold block
  omega

/-- replacing blocks of four digits by their signs keeps the sign -/
theorem sign_blocks {e : Nat → Int} (he : ∀ i, IsDigit (e i)) : ∀ J : Nat,
    (valueN (fun j => (block e j).sign) J).sign = (valueN e (4 * J)).sign
  | 0 => rfl
  | J + 1 => by
    have ih := sign_blocks he J
    have h1 : valueN e (4 * (J + 1)) = valueN e (4 * J) + 2 ^ (4 * J) * block e J := by
      rw [Nat.mul_add, valueN_split]; rfl
    have h2 : valueN (fun j => (block e j).sign) (J + 1)
        = valueN (fun j => (block e j).sign) J + 2 ^ J * (block e J).sign := by
      show _ + _ = _
      ring
    rw [h1, h2, sign_high (valueN_abs_lt (fun i _ => he i)),
      sign_high (valueN_abs_lt (fun i _ => isDigit_sign _)), ih]
    simp only [Int.sign_eq_zero_iff_zero, Int.sign_sign]

section
variable {S : Scheme} {ck : ClientKey S} {pc : Cloud} {B D : Nat}

/-- noise weight of the words signum works on -/
def sgnWeight (pc : Cloud) : Nat := if pc.params.quadWeight ≥ 85 then 15 else 8

theorem Setting.tolSgn (_ : Setting S ck pc B D) {k : Nat} (hk : k ≤ sgnWeight pc) :
    k ≤ tolWeight pc.params.quadWeight := by
  have : sgnWeight pc ≤ tolWeight pc.params.quadWeight := by
    unfold sgnWeight tolWeight; split_ifs <;> omega
  exact hk.trans this

theorem sgnWeight_ge : 8 ≤ sgnWeight pc := by unfold sgnWeight; split_ifs <;> omega

theorem tableF1 {m : Int} (h1 : -15 ≤ m) (h2 : m ≤ 15) (v : Nat) :
    tableAt ((lutF1 v).map fun (v : Nat) => (v : Int)) m = m.sign * v := by
  rcases lt_trichotomy m 0 with h | h | h
  · rw [Int.sign_eq_neg_one_of_neg h]
    interval_cases m <;> simp [tableAt, lutF1]
  · subst h; simp [tableAt, lutF1]
  · rw [Int.sign_eq_one_of_pos h]
    interval_cases m <;> simp [tableAt, lutF1]

theorem pbsF1_spec (st : Setting S ck pc B D) {w : Word S.C} {m : Int} (h1 : -15 ≤ m) (h2 : m ≤ 15)
    {k : Nat} (hk : k ≤ sgnWeight pc) (hw : WordEnc ck B w m k) (v : Nat) (hv : v < 32) :
    Yields (pbsF1 S pc w v) (fun r => WordEnc ck B r (m.sign * v) 1) := by
  refine (evalLut5Uint_spec st (lut := lutF1 v) (by simp [lutF1])
    (by intro a ha; simp [lutF1] at ha; omega) (st.tolSgn hk) hw).yields.mono ?_
  rintro r ⟨n, a, _⟩
  rwa [tableF1 h1 h2] at a

/-- words of the signum recursion: messages in `[-15,15]`, noise up to `sgnWeight` -/
def Raw (ck : ClientKey S) (pc : Cloud) (B : Nat) (x : Ctxt S.C) (d : Nat → Int) : Prop :=
  (∀ i (h : i < x.length), WordEnc ck B x[i] (d i) (sgnWeight pc)) ∧
  (∀ i, -15 ≤ d i ∧ d i ≤ 15) ∧ (∀ i, x.length ≤ i → d i = 0)

theorem sgnStep (st : Setting S ck pc B D) {x : Ctxt S.C} {d : Nat → Int}
    (hx : ∀ i (h : i < x.length), WordEnc ck B x[i] (d i) 1) (hd : ∀ i, x.length ≤ i → d i = 0)
    {p : Nat} {w : Word S.C} {m : Int} {k : Nat} (hw : WordEnc ck B w m k) (i : Nat) (hi : i ≤ 2) :
    Yields (if p + i < x.length then do
      let xi ← idx x (p + i)
      let xi := if i = 0 then xi else Word.mulConst S xi (2 ^ i : Nat)
      pure (Word.add S w xi)
    else pure w) (fun r => WordEnc ck B r (m + 2 ^ i * d (p + i)) (k + 2 ^ i)) := by
  by_cases h : p + i < x.length
  · rw [if_pos h]
    refine Yields.bind ((Returns.idx h).yields rfl) ?_
    rintro _ rfl
    refine Yields.pure ?_
    by_cases h0 : i = 0
    · subst h0
      simpa using hw.add st (hx p h)
    · simp only [if_neg h0]
      have hm := (hx (p + i) h).mulConst st (2 ^ i : Nat) (by interval_cases i <;> norm_num)
      have := hw.add st hm
      push_cast at this ⊢
      simpa [Int.natAbs_pow] using this
  · rw [if_neg h]
    refine Yields.pure ?_
    rw [hd (p + i) (by omega)]
    have := hw.mono (Nat.le_add_right k (2 ^ i))
    simpa using this

theorem sgnFirst_spec (st : Setting S ck pc B D) {x : Ctxt S.C} {d : Nat → Int}
    (hx : Holds ck B 1 x d) (hdig : ∀ i, IsDigit (d i)) (hd : ∀ i, x.length ≤ i → d i = 0) (j : Nat) :
    Yields (sgnFirst S pc x j (encryptWordTriv S.C pc 0))
      (fun r => WordEnc ck B r (block d j) (sgnWeight pc)) := by
  have hx' : ∀ i (h : i < x.length), WordEnc ck B x[i] (d i) 1 := fun i h => (hx i h).1
  unfold sgnFirst
  refine Yields.bind (P := fun r => WordEnc ck B r (8 * d (4 * j + 3)) (sgnWeight pc - 7)) ?_ ?_
  · by_cases h : sgnGamma * j + 3 < x.length
    · rw [if_pos h]
      refine Yields.bind ((Returns.idx h).yields rfl) ?_
      rintro _ rfl
      have h0 : WordEnc ck B (encryptWordTriv S.C pc 0) 0 0 := WordEnc.triv st 0 0
      by_cases hq : pc.params.quadWeight ≥ 85
      · rw [if_pos hq]
        refine Yields.bind ((Returns.pure _).yields rfl) ?_
        rintro _ rfl
        refine Yields.pure ?_
        have := h0.add st ((hx' _ h).mulConst st 8 (by norm_num))
        simpa [sgnWeight, hq, sgnGamma] using this
      · rw [if_neg hq]
        have hr := hdig (sgnGamma * j + 3)
        unfold IsDigit at hr
        refine Yields.bind (pbsF1_spec st (by omega) (by omega)
          (show 1 ≤ _ from (by norm_num : 1 ≤ 8).trans sgnWeight_ge) (hx' _ h) 8 (by norm_num)) ?_
        intro r hr'
        refine Yields.pure ?_
        have := h0.add st hr'
        have es : (d (sgnGamma * j + 3)).sign * 8 = 8 * d (4 * j + 3) := by
          simp only [sgnGamma] at hr ⊢
          rcases hr with h | h | h <;> rw [h] <;> rfl
        simpa [sgnWeight, hq, es] using this
    · rw [if_neg h]
      refine Yields.pure ?_
      rw [hd (4 * j + 3) (by simp only [sgnGamma] at h; omega)]
      exact WordEnc.triv st 0 _
  · intro b3 h3
    refine Yields.bind (sgnStep st hx' hd h3 0 (by norm_num)) ?_
    intro b0 h0
    refine Yields.bind (sgnStep st hx' hd h0 1 (by norm_num)) ?_
    intro b1 h1
    refine (sgnStep st hx' hd h1 2 (by norm_num)).mono ?_
    intro b2 h2
    have hw := sgnWeight_ge (pc := pc)
    have := h2.mono (show sgnWeight pc - 7 + 2 ^ 0 + 2 ^ 1 + 2 ^ 2 ≤ sgnWeight pc by norm_num; omega)
    have e : block d j = 8 * d (4 * j + 3) + 2 ^ 0 * d (sgnGamma * j + 0) + 2 ^ 1 * d (sgnGamma * j + 1)
        + 2 ^ 2 * d (sgnGamma * j + 2) := by
      simp only [block, valueN, sgnGamma]; ring
    rw [e]
    exact this

theorem sgnNext_spec (st : Setting S ck pc B D) {x : Ctxt S.C} {d : Nat → Int}
    (hx : Raw ck pc B x d) (j : Nat) :
    Yields (sgnNext S pc x j (encryptWordTriv S.C pc 0))
      (fun r => WordEnc ck B r (block (fun i => (d i).sign) j) (sgnWeight pc)) := by
  obtain ⟨h1, h2, h3⟩ := hx
  unfold sgnNext
  refine Yields.bind (Yields.parFor
    (P := fun i a => WordEnc ck B a ((d (4 * j + i)).sign * (2 ^ i : Nat)) 1) ?_) ?_
  · intro i hi
    have hi4 : i < 4 := by rwa [length_trivCt] at hi
    by_cases h : sgnGamma * j + i < x.length
    · rw [if_pos h]
      refine Yields.bind ((Returns.idx h).yields rfl) ?_
      rintro _ rfl
      exact pbsF1_spec st (h2 _).1 (h2 _).2 (le_refl _) (h1 _ h) (2 ^ i)
        (by interval_cases i <;> norm_num)
    · rw [if_neg h]
      refine Yields.pure ?_
      rw [h3 (4 * j + i) (by simp only [sgnGamma] at h; omega)]
      simp only [trivCt, List.getElem_replicate, Int.sign_zero, Int.zero_mul]
      exact WordEnc.triv st 0 1
  · rintro sj ⟨hl, hs⟩
    rw [length_trivCt, sgnGamma] at hl
    match sj, hl with
    | [a, b, c, e], _ =>
      refine Yields.pure ?_
      have ha := hs 0 (by simp)
      have hb := hs 1 (by simp)
      have hc := hs 2 (by simp)
      have he := hs 3 (by simp)
      have := ((((WordEnc.triv st 0 0).add st ha).add st hb).add st hc).add st he
      have hw := sgnWeight_ge (pc := pc)
      have := this.mono (show 0 + 1 + 1 + 1 + 1 ≤ sgnWeight pc by omega)
      have eb : block (fun i => (d i).sign) j = 0 + (d (4 * j + 0)).sign * (2 ^ 0 : Nat)
          + (d (4 * j + 1)).sign * (2 ^ 1 : Nat) + (d (4 * j + 2)).sign * (2 ^ 2 : Nat)
          + (d (4 * j + 3)).sign * (2 ^ 3 : Nat) := by
        simp only [block, valueN]; push_cast; ring
      rw [eb]
      exact this

/-- a single word with the given sign -/
def OneSign (ck : ClientKey S) (pc : Cloud) (B : Nat) (σ : Int) (r : Ctxt S.C) : Prop :=
  ∃ w m, r = [w] ∧ WordEnc ck B w m (sgnWeight pc) ∧ -15 ≤ m ∧ m ≤ 15 ∧ m.sign = σ

theorem sgnRaw_next (st : Setting S ck pc B D) : ∀ (fuel : Nat) (x : Ctxt S.C) (d : Nat → Int),
    x.length ≤ fuel → Raw ck pc B x d →
    Yields (sgnRecursionRaw S pc fuel x false)
      (OneSign ck pc B (valueN (fun i => (d i).sign) x.length).sign) := by
  intro fuel
  induction fuel with
  | zero =>
    intro x d hf hx
    have hl : x.length = 0 := by omega
    unfold sgnRecursionRaw
    rw [if_pos hl, hl]
    exact Yields.pure ⟨_, 0, rfl, WordEnc.triv st 0 _, by norm_num, by norm_num, rfl⟩
  | succ fuel ih =>
    intro x d hf hx
    unfold sgnRecursionRaw
    by_cases h0 : x.length = 0
    · rw [if_pos h0, h0]
      exact Yields.pure ⟨_, 0, rfl, WordEnc.triv st 0 _, by norm_num, by norm_num, rfl⟩
    · rw [if_neg h0]
      by_cases h1 : x.length = 1
      · rw [if_pos h1, h1]
        match x, h1 with
        | [w], _ =>
          refine Yields.pure ⟨w, d 0, rfl, hx.1 0 (by simp), (hx.2.1 0).1, (hx.2.1 0).2, ?_⟩
          simp [valueN]
      · rw [if_neg h1]
        refine Yields.bind (Yields.parFor
          (P := fun j a => WordEnc ck B a (block (fun i => (d i).sign) j) (sgnWeight pc)) ?_) ?_
        · intro j hj
          simp only [Bool.false_eq_true, if_false, trivCt, List.getElem_replicate]
          exact sgnNext_spec st hx j
        · rintro b ⟨hl, hb⟩
          rw [length_trivCt, sgnGamma] at hl
          have hdig : ∀ i, IsDigit ((d i).sign) := fun i => isDigit_sign _
          have hz : ∀ i, x.length ≤ i → (d i).sign = 0 := fun i hi => by rw [hx.2.2 i hi]; rfl
          have := ih b (fun j => block (fun i => (d i).sign) j) (by omega) ⟨hb, fun j => block_range hdig j, by
            intro j hj
            show valueN _ 4 = 0
            apply valueN_zero
            intro i hi
            exact hz _ (by omega)⟩
          rw [sign_blocks hdig, valueN_extend (n := x.length) (by omega) (fun i hi _ => hz i hi)] at this
          exact this

theorem sgnRaw_first (st : Setting S ck pc B D) {x : Ctxt S.C} {v : Int} (hx : Valid ck B x v) :
    Yields (sgnRecursionRaw S pc x.length x true) (OneSign ck pc B v.sign) := by
  obtain ⟨d, hd, hdig, hz, hv⟩ := hx.canon
  unfold sgnRecursionRaw
  by_cases h0 : x.length = 0
  · rw [if_pos h0]
    have : v = 0 := by rw [← hv x.length (le_refl _), h0]; rfl
    rw [this]
    exact Yields.pure ⟨_, 0, rfl, WordEnc.triv st 0 _, by norm_num, by norm_num, rfl⟩
  · rw [if_neg h0]
    by_cases h1 : x.length = 1
    · rw [if_pos h1]
      have hv1 := hv x.length (le_refl _)
      match x, h1 with
      | [w], _ =>
        have hdw := hd 0 (by simp)
        have hr := hdw.2
        unfold IsDigit at hr
        refine Yields.pure ⟨w, d 0, rfl,
          hdw.1.mono ((by norm_num : 1 ≤ 8).trans sgnWeight_ge), by omega, by omega, ?_⟩
        rw [← hv1]
        simp [valueN]
    · rw [if_neg h1]
      obtain ⟨f, hf⟩ : ∃ f, x.length = f + 1 := ⟨x.length - 1, by omega⟩
      rw [hf]
      refine Yields.bind (Yields.parFor
        (P := fun j a => WordEnc ck B a (block d j) (sgnWeight pc)) ?_) ?_
      · intro j hj
        simp only [if_true, trivCt, List.getElem_replicate]
        exact sgnFirst_spec st hd hdig hz j
      · rintro b ⟨hl, hb⟩
        rw [length_trivCt, sgnGamma] at hl
        have := sgnRaw_next st f b (fun j => block d j) (by omega) ⟨hb, fun j => block_range hdig j, by
          intro j hj
          show valueN _ 4 = 0
          apply valueN_zero
          intro i hi
          exact hz _ (by omega)⟩
        rw [sign_blocks hdig, hv _ (by omega)] at this
        exact this

theorem ctSgn_valid (st : Setting S ck pc B D) {x : Ctxt S.C} {v : Int} (hx : Valid ck B x v) :
    Yields (ctSgn S pc x) (fun z => Valid ck B z v.sign ∧ z.length = min x.length 1) := by
  unfold ctSgn sgnImpl
  apply Yields.call
  by_cases h0 : x.length = 0
  · rw [if_pos h0]
    have : v = 0 := by
      have := hx.abs_lt
      rw [h0] at this
      simpa using this
    rw [this]
    exact Yields.pure ⟨Valid.nil, by rw [h0]; rfl⟩
  · rw [if_neg h0]
    by_cases h1 : x.length = 1
    · rw [if_pos h1]
      have hv : v.sign = v := by
        have := hx.abs_lt
        rw [h1] at this
        have : v = -1 ∨ v = 0 ∨ v = 1 := by omega
        rcases this with h | h | h <;> subst h <;> rfl
      rw [hv]
      exact Yields.pure ⟨hx, by omega⟩
    · rw [if_neg h1]
      refine Yields.bind (sgnRaw_first st hx) ?_
      rintro _ ⟨w, m, rfl, hw, hm1, hm2, hs⟩
      refine Yields.bind ((Returns.idx (show 0 < [w].length by simp)).yields rfl) ?_
      rintro _ rfl
      refine Yields.bind (pbsF1_spec st hm1 hm2 (le_refl _) hw 1 (by norm_num)) ?_
      intro r hr
      refine Yields.pure ⟨?_, by simp [singleCt]; omega⟩
      rw [hs] at hr
      exact Valid.single (by simpa using hr) (isDigit_sign v)

/-! ### Maximum -/

theorem tableNonneg (m : Int) : tableAt (List.replicate 16 1) m = if m % 32 < 16 then 1 else -1 := by
  have h0 := Int.emod_nonneg m (show (32 : Int) ≠ 0 by norm_num)
  have h1 := Int.emod_lt_of_pos m (show (0 : Int) < 32 by norm_num)
  unfold tableAt
  have key : ∀ i, i < 16 → (List.replicate 16 (1 : Int)).getD i 0 = 1 := by
    intro i hi
    rw [List.getD_eq_getElem _ _ (by simpa using hi), List.getElem_replicate]
  split_ifs
  · exact key _ (by omega)
  · rw [key _ (by omega)]

theorem pbsNonneg_spec (st : Setting S ck pc B D) {w : Word S.C} {m : Int} {k : Nat}
    (hk : k ≤ tolWeight pc.params.quadWeight) (hw : WordEnc ck B w m k) :
    Yields (pbsNonneg S pc w) (fun r => WordEnc ck B r (if m % 32 < 16 then 1 else 0) 1) := by
  unfold pbsNonneg
  refine Yields.bind (evalLut5Float_spec st (lut := List.replicate 16 1) (by simp)
    (by intro v hv; rw [List.eq_of_mem_replicate hv]; norm_num) hk hw).yields ?_
  rintro r ⟨n, h1, _⟩
  refine Yields.pure ?_
  rw [wordEnc_iff]
  have := h1.addHalf st.sound
  rw [tableNonneg] at this
  split_ifs at this ⊢ <;> simpa using this

theorem tableMax {x y s : Int} (hx : IsDigit x) (hy : IsDigit y) (hs : s = 0 ∨ s = 1) :
    tableAt (lutMax.map fun (v : Nat) => (v : Int)) (6 * y + 2 * x + s) % 32
      = (if s = 1 then x else y) % 32 := by
  rcases hx with h | h | h <;> rcases hy with h' | h' | h' <;> rcases hs with h'' | h'' <;>
    subst h <;> subst h' <;> subst h'' <;> decide

theorem Valid.pad (st : Setting S ck pc B D) {x : Ctxt S.C} {d : Nat → Int} (hx : Holds ck B 1 x d)
    (hz : ∀ i, x.length ≤ i → d i = 0) (n : Nat) :
    Holds ck B 1 (x ++ List.replicate n (encryptWordTriv S.C pc 0)) d := by
  intro i hi
  by_cases h : i < x.length
  · rw [List.getElem_append_left h]; exact hx i h
  · rw [List.getElem_append_right (by omega), hz i (by omega)]
    simp only [List.getElem_replicate]
    exact ⟨WordEnc.triv st 0 1, isDigit_zero⟩

theorem maxImpl_valid (st : Setting S ck pc B D) {x y : Ctxt S.C} {vx vy : Int}
    (hx : Valid ck B x vx) (hy : Valid ck B y vy) :
    Yields (maxImpl S pc x y) (fun z => Valid ck B z (max vx vy) ∧
      z.length = max x.length y.length) := by
  obtain ⟨dx, hdx, hgx, hzx, hvx⟩ := hx.canon
  obtain ⟨dy, hdy, hgy, hzy, hvy⟩ := hy.canon
  unfold maxImpl
  refine Yields.bind (ctSub_valid st hx hy) ?_
  rintro r ⟨hr, _⟩
  refine Yields.bind (sgnRaw_first st hr) ?_
  rintro _ ⟨w, m, rfl, hw, hm1, hm2, hs⟩
  refine Yields.bind ((Returns.idx (show 0 < [w].length by simp)).yields rfl) ?_
  rintro _ rfl
  refine Yields.bind (pbsNonneg_spec st (st.tolSgn (le_refl _)) hw) ?_
  intro s hsw
  obtain ⟨σ, hσ⟩ : ∃ σ : Int, σ = if m % 32 < 16 then 1 else 0 := ⟨_, rfl⟩
  rw [← hσ] at hsw
  have hσd : σ = 0 ∨ σ = 1 := by rw [hσ]; split_ifs <;> simp
  have hσv : σ = 1 ↔ vy ≤ vx := by
    have h1 : σ = 1 ↔ 0 ≤ m := by
      rw [hσ]; split_ifs <;> simp <;> omega
    rw [h1, ← Int.sign_nonneg_iff, hs, Int.sign_nonneg_iff]
    omega
  have hpx := Valid.pad st hdx hzx (y.length - x.length)
  have hpy := Valid.pad st hdy hzy (x.length - y.length)
  have hlx : (x ++ List.replicate (y.length - x.length) (encryptWordTriv S.C pc 0)).length
      = max x.length y.length := by simp; omega
  have hly : (y ++ List.replicate (x.length - y.length) (encryptWordTriv S.C pc 0)).length
      = max x.length y.length := by simp; omega
  refine (Yields.parFor (P := fun i a => WordEnc ck B a (if σ = 1 then dx i else dy i) 1) ?_).mono ?_
  · intro i hi
    rw [length_trivCt] at hi
    have hi2 : i < (y ++ List.replicate (x.length - y.length) (encryptWordTriv S.C pc 0)).length := by
      omega
    refine Yields.bind ((Returns.idx hi).yields rfl) ?_
    rintro _ rfl
    refine Yields.bind ((Returns.idx hi2).yields rfl) ?_
    rintro _ rfl
    have hxi := hpx i hi
    have hyi := hpy i hi2
    have hyr := hyi.2
    unfold IsDigit at hyr
    refine Yields.bind (P := fun t => WordEnc ck B t (6 * dy i)
      (if pc.params.quadWeight ≥ 41 then 6 else 1)) ?_ ?_
    · by_cases hq : pc.params.quadWeight ≥ 41
      · rw [if_pos hq, if_pos hq]
        exact Yields.pure (by simpa using hyi.1.mulConst st 6 (by norm_num))
      · rw [if_neg hq, if_neg hq]
        refine (pbsF1_spec st (by omega) (by omega) ((by norm_num : 1 ≤ 8).trans sgnWeight_ge)
          hyi.1 6 (by norm_num)).mono ?_
        intro t ht
        have e : (dy i).sign * (6 : Nat) = 6 * dy i := by
          rcases hyr with h | h | h <;> rw [h] <;> rfl
        rwa [e] at ht
    · intro t ht
      have h2 := (ht.add st (hxi.1.mulConst st 2 (by norm_num))).add st hsw
      have htol : (if pc.params.quadWeight ≥ 41 then 6 else 1) + Int.natAbs 2 * 1 + 1
            ≤ tolWeight pc.params.quadWeight := by
        unfold tolWeight; split_ifs <;> simp <;> omega
      refine (evalLut5Uint_spec st (lut := lutMax) (by decide) (by decide) htol h2).yields.mono ?_
      rintro a ⟨n, h3, _⟩
      exact h3.congr (tableMax hxi.2 hyi.2 hσd)
  · rintro z ⟨hl, hz⟩
    rw [length_trivCt, hlx] at hl
    refine ⟨⟨fun i => if σ = 1 then dx i else dy i, ?_, ?_⟩, hl⟩
    · intro i hi
      refine ⟨hz i hi, ?_⟩
      simp only
      split_ifs
      · exact hgx i
      · exact hgy i
    · by_cases h : σ = 1
      · simp only [h, if_true]
        rw [hl, hvx _ (by omega)]
        have := hσv.1 h; omega
      · simp only [h, if_false]
        rw [hl, hvy _ (by omega)]
        have : ¬ vy ≤ vx := fun hc => h (hσv.2 hc)
        omega

theorem ctMax_valid (st : Setting S ck pc B D) {x y : Ctxt S.C} {vx vy : Int}
    (hx : Valid ck B x vx) (hy : Valid ck B y vy) :
    Yields (ctMax S pc x y) (fun z => Valid ck B z (max vx vy) ∧
      z.length = max x.length y.length) := (maxImpl_valid st hx hy).call

theorem ctRelu_valid (st : Setting S ck pc B D) {x : Ctxt S.C} {v : Int} (hx : Valid ck B x v) :
    Yields (ctRelu S pc x) (fun z => Valid ck B z (max 0 v) ∧ z.length = x.length) := by
  refine ((maxImpl_valid st Valid.nil hx).mono ?_).call
  rintro z ⟨h1, h2⟩
  exact ⟨h1, by simpa using h2⟩

/-! ### Rounding -/

theorem tableRound {y s : Int} (hy : IsDigit y) (hs : IsDigit s) :
    tableAt (lutRound.map fun (v : Nat) => (v : Int)) (2 * y + s) % 32
      = (if 2 ≤ 2 * y + s then 1 else if 2 * y + s = -3 then -1 else 0) % 32 := by
  rcases hy with h | h | h <;> rcases hs with h' | h' | h' <;> subst h <;> subst h' <;> decide

/-- round-half-up of the low part -/
theorem round_low {L y s p : Int} (hp : 0 < p) (hL1 : -p < L) (hL2 : L < p) (hy : IsDigit y)
    (hs : s = L.sign) :
    (L + y * p + p) / (2 * p) = if 2 ≤ 2 * y + s then 1 else if 2 * y + s = -3 then -1 else 0 := by
  have hs' : (L < 0 ∧ s = -1) ∨ (L = 0 ∧ s = 0) ∨ (0 < L ∧ s = 1) := by
    rcases lt_trichotomy L 0 with h | h | h
    · exact Or.inl ⟨h, by rw [hs, Int.sign_eq_neg_one_of_neg h]⟩
    · exact Or.inr (Or.inl ⟨h, by rw [hs, h]; rfl⟩)
    · exact Or.inr (Or.inr ⟨h, by rw [hs, Int.sign_eq_one_of_pos h]⟩)
  have key : ∀ a q : Int, q * (2 * p) ≤ a → a < (q + 1) * (2 * p) → a / (2 * p) = q := by
    intro a q h1 h2
    apply le_antisymm
    · exact Int.lt_add_one_iff.1 ((Int.ediv_lt_iff_lt_mul (by omega)).2 h2)
    · exact (Int.le_ediv_iff_mul_le (by omega)).2 h1
  rcases hy with h | h | h <;> subst h <;> rcases hs' with ⟨h1, h2⟩ | ⟨h1, h2⟩ | ⟨h1, h2⟩ <;>
    rw [h2] <;> norm_num <;> apply key <;> omega

theorem roundAtImpl_valid (st : Setting S ck pc B D) {x : Ctxt S.C} {v : Int} (hx : Valid ck B x v)
    (pos : Nat) :
    Yields (roundAtImpl S pc x pos) (fun z =>
      Valid ck B z (if pos = 0 then v else (v + 2 ^ (pos - 1)) / 2 ^ pos * 2 ^ pos) ∧
      z.length ≤ max x.length (pos + 1) + 1) := by
  unfold roundAtImpl
  by_cases h0 : pos = 0
  · rw [if_pos h0, if_pos h0]
    exact Yields.pure ⟨hx, by omega⟩
  · rw [if_neg h0, if_neg h0]
    have e2 : (2 : Int) ^ pos = 2 * 2 ^ (pos - 1) := by
      rw [← pow_succ']; congr 1; omega
    have hppos : (0 : Int) < 2 ^ (pos - 1) := by positivity
    by_cases h1 : pos ≥ x.length + 1
    · rw [if_pos h1]
      have hb := hx.abs_lt
      have hle : 2 ^ x.length ≤ 2 ^ (pos - 1) := Nat.pow_le_pow_right (by norm_num) (by omega)
      have hc : ((2 ^ (pos - 1) : Nat) : Int) = 2 ^ (pos - 1) := by push_cast; rfl
      have hz : (v + 2 ^ (pos - 1)) / 2 ^ pos = 0 := by
        apply Int.ediv_eq_zero_of_lt <;> omega
      refine Yields.pure ⟨Valid.nil.congr (by rw [hz]; simp), ?_⟩
      simp [ctZero, emptyCt]
    · rw [if_neg h1]
      obtain ⟨d, hd, rfl⟩ := hx
      have hL := Valid.take hd (k := pos - 1) (by omega)
      have hLb := hL.abs_lt
      rw [List.length_take, Nat.min_eq_left (by omega)] at hLb
      obtain ⟨L, hLe⟩ : ∃ L, L = valueN d (pos - 1) := ⟨_, rfl⟩
      rw [← hLe] at hL hLb
      refine Yields.bind (ctSgn_valid st hL) ?_
      rintro s ⟨hs, hsl⟩
      rw [List.length_take, Nat.min_eq_left (show pos - 1 ≤ x.length by omega)] at hsl
      have hp : pos - 1 < x.length := by omega
      refine Yields.bind ((Returns.idx hp).yields rfl) ?_
      rintro _ rfl
      have hxp := hd _ hp
      refine Yields.bind (P := fun a => WordEnc ck B a (2 * d (pos - 1) + L.sign) 3) ?_ ?_
      · by_cases hs0 : s.length > 0
        · rw [if_pos hs0]
          refine Yields.bind ((Returns.idx hs0).yields rfl) ?_
          rintro _ rfl
          refine Yields.pure ?_
          obtain ⟨e, he, hev⟩ := hs
          have hsl1 : s.length = 1 := by omega
          have h3 := (he 0 hs0).1
          have h4 : e 0 = L.sign := by
            rw [← hev, hsl1]; simp [valueN]
          rw [h4] at h3
          exact (hxp.1.mulConst st 2 (by norm_num)).add st h3
        · rw [if_neg hs0]
          have hp1 : pos - 1 = 0 := by omega
          have : L = 0 := by rw [hLe, hp1]; rfl
          refine Yields.pure ?_
          rw [this]
          have := (hxp.1.mulConst st 2 (by norm_num)).mono (show Int.natAbs 2 * 1 ≤ 3 by norm_num)
          simpa using this
      · intro yys hyys
        refine Yields.bind (evalLut5Uint_spec st (lut := lutRound) (by decide) (by decide)
          (st.wt8 (by norm_num)) hyys).yields ?_
        rintro rw' ⟨n, h3, _⟩
        have h4 := h3.congr (tableRound hxp.2 (isDigit_sign L))
        have hrd : IsDigit (if 2 ≤ 2 * d (pos - 1) + L.sign then 1
            else if 2 * d (pos - 1) + L.sign = -3 then -1 else 0) := by
          split_ifs <;> simp [IsDigit]
        have hr := (Valid.trivCt st pos).append (Valid.single h4 hrd)
        rw [length_trivCt] at hr
        have hH := ctShift_valid st (Valid.drop hd pos) pos
        refine (ctAdd_valid st hH hr).mono ?_
        rintro z ⟨hz, hzl⟩
        rw [length_ctShift, List.length_drop, List.length_append, length_trivCt] at hzl
        refine ⟨hz.congr ?_, by simp at hzl; omega⟩
        have hc : ((2 ^ (pos - 1) : Nat) : Int) = 2 ^ (pos - 1) := by push_cast; rfl
        rw [← round_low (L := L) (y := d (pos - 1)) (s := L.sign) (p := 2 ^ (pos - 1)) hppos
          (by omega) (by omega) hxp.2 rfl]
        have hsplit : valueN d x.length = L + d (pos - 1) * 2 ^ (pos - 1)
            + 2 ^ pos * valueN (fun i => d (pos + i)) (x.length - pos) := by
          have h5 : valueN d x.length = valueN d (pos + (x.length - pos)) := by
            congr 1; omega
          rw [h5, valueN_split]
          congr 1
          obtain ⟨q, hq⟩ : ∃ q, pos = q + 1 := ⟨pos - 1, by omega⟩
          subst hq
          rw [hLe]; rfl
        rw [hsplit, ← e2]
        have hpp : (2 : Int) ^ pos ≠ 0 := by positivity
        rw [show L + d (pos - 1) * 2 ^ (pos - 1)
            + 2 ^ pos * valueN (fun i => d (pos + i)) (x.length - pos) + 2 ^ (pos - 1)
          = (L + d (pos - 1) * 2 ^ (pos - 1) + 2 ^ (pos - 1))
            + 2 ^ pos * valueN (fun i => d (pos + i)) (x.length - pos) by ring,
          Int.add_mul_ediv_left _ _ hpp]
        ring

theorem ctRoundAt_valid (st : Setting S ck pc B D) {x : Ctxt S.C} {v : Int} (hx : Valid ck B x v)
    (pos : Nat) :
    Yields (ctRoundAt S pc x pos) (fun z =>
      Valid ck B z (if pos = 0 then v else (v + 2 ^ (pos - 1)) / 2 ^ pos * 2 ^ pos) ∧
      z.length ≤ max x.length (pos + 1) + 1) := (roundAtImpl_valid st hx pos).call

end
end Parm
