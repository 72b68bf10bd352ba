import Verif.SpecLengths
import Verif.Proof.Depth
import Verif.Proof.ScalarMul
import Verif.Props.Schedule

/-!
# Exact numbers of words
-/

namespace Parm
namespace Wt

/-! ### Outcomes of two computations -/

/-- whatever the two computations return is related -/
def Agrees {α β : Type} (R : α → β → Prop) (m : M α) (m' : M β) : Prop :=
  ∀ s a s' t b t', m s = .ok (a, s') → m' t = .ok (b, t') → R a b

section
variable {α β α' β' : Type} {R : α → β → Prop} {R' : α' → β' → Prop} {m : M α} {m' : M β}

theorem Agrees.pure {a : α} {b : β} (h : R a b) : Agrees R (Pure.pure a) (Pure.pure b) := by
  intro s a' s' t b' t' h1 h2
  injection h1 with h1
  injection h1 with h1 _
  injection h2 with h2
  injection h2 with h2 _
  subst h1 h2
  exact h

theorem Agrees.of_ensures {b : β} (h : Ensures m fun a => R a b) : Agrees R m (Pure.pure b) := by
  intro s a' s' t b' t' h1 h2
  injection h2 with h2
  injection h2 with h2 _
  subst h2
  exact h s a' s' h1

theorem Agrees.panic (p : PanicKind) : Agrees R m (M.panic p) := by
  intro s a s' t b t' _ h
  cases h

theorem Agrees.bind {f : α → M α'} {f' : β → M β'} (h : Agrees R m m') (hf : ∀ a b, R a b → Agrees R' (f a) (f' b)) :
    Agrees R' (m >>= f) (m' >>= f') := by
  intro s c s' t d t' h1 h2
  simp only [Bind.bind, StateT.bind, Except.bind] at h1 h2
  cases e1 : m s with
  | error _ => rw [e1] at h1; cases h1
  | ok p =>
    cases e2 : m' t with
    | error _ => rw [e2] at h2; cases h2
    | ok q =>
      rw [e1] at h1
      rw [e2] at h2
      exact hf p.1 q.1 (h s p.1 p.2 t q.1 q.2 e1 e2) p.2 c s' q.2 d t' h1 h2

theorem Agrees.ite_right {c : Prop} [Decidable c] {m1 m2 : M β} (h1 : c → Agrees R m m1) (h2 : ¬ c → Agrees R m m2) :
    Agrees R m (if c then m1 else m2) := by
  split
  · exact h1 ‹_›
  · exact h2 ‹_›

theorem Agrees.same {m : M α} (h : Pure0 m) : Agrees (· = ·) m m := by
  intro s a s' t b t' h1 h2
  rcases h with ⟨c, hc⟩ | h
  · obtain ⟨_, _, _, e1⟩ := hc s
    obtain ⟨_, _, _, e2⟩ := hc t
    rw [h1] at e1
    rw [h2] at e2
    injection e1 with e1
    injection e1 with e1
    injection e2 with e2
    injection e2 with e2
    rw [e1, e2]
  · obtain ⟨f, hf⟩ := h s
    rw [h1] at hf
    cases hf

theorem Agrees.idx {l : List α} {l' : List β} (h : List.Forall₂ R l l') (i : Nat) : Agrees R (idx l i) (idx l' i) := by
  intro s a s' t b t' h1 h2
  obtain ⟨i1, e1⟩ := Ensures.idx s a s' h1
  obtain ⟨i2, e2⟩ := Ensures.idx t b t' h2
  subst e1 e2
  exact h.get i1 i2

theorem Agrees.ensures (h : Agrees R m m') {b : β} {n : Nat} (hb : Returns m' b n) : Ensures m fun a => R a b := by
  intro s a s' h1
  obtain ⟨r, rep, _, e⟩ := hb s
  exact h s a s' s b _ h1 e

end

/-! ### Words -/

variable {pc : Cloud} {x y z : Ctxt Term} {n m : Nat}

theorem words_iff : Words n x ↔ x.length = n ∧ (0 < n → (wd x (n - 1)).isTriv = false) := by
  unfold Words
  refine and_congr_right fun h => ?_
  subst h
  by_cases h0 : 0 < x.length
  · have : x.getLast? = some (wd x (x.length - 1)) := by
      rw [List.getLast?_eq_getElem?, wd_lt (by omega), List.getElem?_eq_getElem (by omega)]
    rw [this]
    generalize wd x (x.length - 1) = w
    rcases w with ⟨c | p, k⟩ <;> simp [Encrypted, Word.isTriv, h0]
  · have : x = [] := List.eq_nil_of_length_eq_zero (by omega)
    subst this
    simp

theorem _root_.Parm.Words.rz (h : Words n x) (h0 : 0 < n) : rzero x ≠ x.length := by
  obtain ⟨h1, h2⟩ := words_iff.1 h
  intro e
  have := allTriv_of_rzero e (wd x (n - 1)) (by rw [wd_lt (by omega)]; exact List.getElem_mem _)
  rw [h2 h0] at this
  cases this

theorem _root_.Parm.Words.lz (h : Words n x) : lzero x = 0 := by
  obtain ⟨h1, h2⟩ := words_iff.1 h
  by_contra hl
  have hle := lzero_le x
  have := isTriv_of_zero (lzero_high x (i := n - 1) (by omega) (by omega))
  rw [wd_lt (by omega)] at h2
  rw [h2 (by omega)] at this
  cases this

theorem _root_.Parm.Words.nil : Words 0 ([] : Ctxt Term) := ⟨rfl, by simp⟩

theorem _root_.Parm.Words.eq_nil (h : Words 0 x) : x = [] := List.eq_nil_of_length_eq_zero h.1

theorem Lut.enc {acc : List (BitVec 64)} {w z : Word Term} (h : Lut acc w z) (hw : w.isTriv = false) : z.isTriv = false := by
  rcases h with ⟨t, _, e⟩ | ⟨e, _⟩
  · simp [Word.isTriv, e]
  · rw [hw] at e; cases e

theorem _root_.Parm.Words.opp (h : Words n x) : Words n (oppositeImpl freeScheme x) := by
  obtain ⟨h1, h2⟩ := words_iff.1 h
  refine words_iff.2 ⟨by simp [oppositeImpl, h1], fun h0 => ?_⟩
  rw [wd_opp _ (by omega), isTriv_opp]
  exact h2 h0

theorem _root_.Parm.Words.shift (h : Words n x) (h0 : 0 < n) (k : Nat) : Words (n + k) (ctShift pc x k) := by
  obtain ⟨h1, h2⟩ := words_iff.1 h
  refine words_iff.2 ⟨by rw [← h1]; exact length_ctShift (S := freeScheme) x k, fun _ => ?_⟩
  unfold ctShift
  split
  · subst k; exact h2 h0
  · have := h2 h0
    rw [wd_lt (by omega)] at this
    rw [wd_lt (by simp [trivCt]; omega), List.getElem_append_right (by simp [trivCt]; omega)]
    convert this using 3
    simp [trivCt]
    omega

/-- the top of a sum of operands of which the longer ends with an encrypted word -/
theorem words_addSub_long {isAdd refresh : Bool} (hx : rzero x ≠ x.length) (hy : rzero y ≠ y.length)
    (hn : max (x.length - lzero x) (y.length - lzero y) = n) (hn0 : 0 < n)
    (ht : ((wd x (n - 1)).isTriv && (wd y (n - 1)).isTriv) = false) :
    Ensures (addSubImpl freeScheme isAdd pc x y refresh) (Words (n + 1)) := by
  refine (addSub_shape' pc isAdd refresh x y).mono ?_
  rintro z (⟨e, _⟩ | ⟨_, e, _⟩ | ⟨_, _, n', r, w, q, h⟩)
  · exact absurd e hx
  · exact absurd e hy
  · have e : n' = n := by rw [h.strip, hn]
    subst e
    have hlt := h.lt
    refine words_iff.2 ⟨h.len, fun _ => ?_⟩
    rw [Nat.add_sub_cancel, h.top]
    refine (h.qHigh (n' - 1) (by omega) (by omega)).enc ?_
    have hw := h.sumTriv (n' - 1) (by omega)
    rw [ht] at hw
    unfold carryIn
    split
    · rw [isTriv_add, isTriv_mulConst, hw]; rfl
    · rw [isTriv_mulConst, hw]

theorem words_addSub {isAdd refresh : Bool} (hx : Words n x) (hy : Words m y) :
    Ensures (addSubImpl freeScheme isAdd pc x y refresh) (Words (lenAdd n m)) := by
  unfold lenAdd
  split
  · rename_i h
    subst h
    have := hx.eq_nil
    subst this
    unfold addSubImpl
    refine Ensures.ite (fun _ => Ensures.pure ?_) fun h => absurd rfl h
    cases isAdd
    · exact hy.opp
    · exact hy
  · split
    · rename_i h0 h
      subst h
      have := hy.eq_nil
      subst this
      unfold addSubImpl
      refine Ensures.ite (fun h => absurd h (hx.rz (by omega))) fun _ => ?_
      exact Ensures.ite (fun _ => Ensures.pure hx) fun h => absurd rfl h
    · rename_i h0 h1
      have ex := words_iff.1 hx
      have ey := words_iff.1 hy
      refine words_addSub_long (hx.rz (by omega)) (hy.rz (by omega)) (by rw [hx.lz, hy.lz, hx.1, hy.1]; rfl) (by omega) ?_
      by_cases h : m ≤ n
      · rw [show max n m = n by omega, ex.2 (by omega)]; rfl
      · rw [show max n m = m by omega, ey.2 (by omega), Bool.and_false]

theorem words_add (hx : Words n x) (hy : Words m y) : Ensures (ctAdd freeScheme pc x y) (Words (lenAdd n m)) :=
  (words_addSub hx hy).call
theorem words_sub (hx : Words n x) (hy : Words m y) : Ensures (ctSub freeScheme pc x y) (Words (lenAdd n m)) :=
  (words_addSub hx hy).call

/-! ### Constants -/

theorem ensures_of_returns {α : Type} {m : M α} {a : α} {k : Nat} (h : Returns m a k) : Ensures m (· = a) := by
  intro s b s' e
  obtain ⟨_, _, _, e'⟩ := h s
  rw [e] at e'
  injection e' with e'
  injection e' with e'

theorem words_addConst (h1 : pc.msgMod = 32) (h5 : pc.params.bitPrecision = 5) (hx : Words n x) {k : Int} (hk : k ≠ 0)
    (h0 : 0 < n) (hb : k.natAbs < 2 ^ min n 63) : Ensures (ctAddConst freeScheme pc x k) (Words (n + 1)) := by
  unfold ctAddConst addConstImpl
  refine Ensures.call (Ensures.ite (fun h => absurd h hk) fun _ => ?_)
  have h63 : k.natAbs < 2 ^ 63 := hb.trans_le (Nat.pow_le_pow_right (by norm_num) (by omega))
  refine (ensures_of_returns (Returns.i64Op (by omega) (by omega))).bind ?_
  rintro _ rfl
  obtain ⟨_, hlt, hmin⟩ := addConstLen_spec h63
  have hln := hmin _ hb
  obtain ⟨L, hL⟩ : ∃ L, L = addConstLen (BitVec.ofInt 64 (k.natAbs : Int)) := ⟨_, rfl⟩
  rw [← hL] at hlt hmin hln
  have hL0 : 0 < L := by
    by_contra h
    have : L = 0 := by omega
    rw [this] at hlt
    omega
  have htop : k.natAbs / 2 ^ (L - 1) % 2 = 1 := by
    have hge : 2 ^ (L - 1) ≤ k.natAbs := by
      by_contra h
      have := hmin (L - 1) (by omega)
      omega
    have : k.natAbs / 2 ^ (L - 1) < 2 := by
      rw [Nat.div_lt_iff_lt_mul (Nat.two_pow_pos _), ← pow_succ', show L - 1 + 1 = L by omega]
      exact hlt
    have : 1 ≤ k.natAbs / 2 ^ (L - 1) := (Nat.one_le_div_iff (Nat.two_pow_pos _)).2 hge
    omega
  dsimp only
  rw [← hL]
  obtain ⟨y, hy⟩ : ∃ y : Ctxt Term, y = (List.range L).map fun i => encryptWordTriv Term pc (wrapI32
    ((if ((BitVec.ofInt 64 (k.natAbs : Int)).sshiftRight i) &&& 1#64 = 0
        then 0 else if decide (k ≥ 0) then 1 else pc.params.plaintextMask : Nat) : Int)) := ⟨_, rfl⟩
  have hyl : y.length = L := by rw [hy]; simp
  have hyr : rzero y ≠ y.length := by
    intro e
    have := rzero_low y (i := L - 1) (by omega) (by omega)
    simp only [hy, List.getElem_map, List.getElem_range] at this
    rw [if_neg (by rw [bit_test h63]; omega)] at this
    have hm : pc.params.plaintextMask = 31 := by unfold Params.plaintextMask; rw [h5]
    rw [hm] at this
    unfold encryptWordTriv Word.isTrivZero at this
    rw [h1] at this
    revert this
    by_cases hp : k ≥ 0 <;> simp only [hp, decide_true, decide_false, if_true, Bool.false_eq_true, if_false] <;> decide
  rw [show (List.map _ _) = y from hy.symm]
  have ex := words_iff.1 hx
  refine Ensures.call (words_addSub_long (hx.rz h0) hyr ?_ h0 ?_)
  · rw [hx.lz, hx.1, hyl]; omega
  · rw [ex.2 h0]; rfl

/-! ### Signum -/

theorem Lut.triv {acc : List (BitVec 64)} {w z : Word Term} (h : Lut acc w z) : z.isTriv = w.isTriv := by
  rcases h with ⟨t, e1, e2⟩ | ⟨e1, e2⟩
  · simp [Word.isTriv, e1, e2]
  · rw [e1, e2]

theorem triv_step {j i : Nat} {b : Word Term} {m : Word Term → Word Term} (hm : ∀ w, (m w).isTriv = w.isTriv) :
    Ensures (if sgnGamma * j + i < x.length then do
      let xi ← idx x (sgnGamma * j + i)
      let xi := m xi
      pure (Word.add freeScheme b xi)
    else pure b : M (Word Term)) fun w => w.isTriv = (b.isTriv && (wd x (sgnGamma * j + i)).isTriv) := by
  refine Ensures.ite (fun h => Ensures.idx.bind fun xi ⟨_, e⟩ => Ensures.pure ?_) fun h => Ensures.pure ?_
  · rw [isTriv_add, hm, ← e, wd_lt h]
  · rw [wd_ge_triv (by omega), Bool.and_true]

theorem triv_sgnFirst (j : Nat) {bj : Word Term} :
    Ensures (sgnFirst freeScheme pc x j bj) fun w => ∀ i, i < 4 → (wd x (4 * j + i)).isTriv = false → w.isTriv = false := by
  unfold sgnFirst
  refine Ensures.bind (P := fun w => w.isTriv = (bj.isTriv && (wd x (4 * j + 3)).isTriv)) ?_ ?_
  · refine Ensures.ite (fun h => ?_) fun h => Ensures.pure ?_
    · refine Ensures.idx.bind fun x3 ⟨h3, e3⟩ => ?_
      refine Ensures.bind (P := fun w => w.isTriv = (wd x (4 * j + 3)).isTriv) ?_ fun s hs => Ensures.pure ?_
      · have : x3 = wd x (4 * j + 3) := by rw [← e3]; exact (wd_lt h3).symm
        rw [← this]
        exact Ensures.ite (fun _ => Ensures.pure (isTriv_mulConst _ _)) fun _ => lutUint.mono fun s hs => hs.triv
      · rw [isTriv_add, hs]
    · rw [wd_ge_triv (by unfold sgnGamma at h; omega), Bool.and_true]
  · intro b hb
    refine (triv_step (i := 0) (m := fun w => w) (fun w => rfl)).bind fun b0 h0 => ?_
    refine (triv_step (i := 1) (m := fun w => Word.mulConst freeScheme w (2 ^ 1 : Nat))
      (fun w => isTriv_mulConst _ _)).bind fun b1 h1 => ?_
    refine (triv_step (i := 2) (m := fun w => Word.mulConst freeScheme w (2 ^ 2 : Nat))
      (fun w => isTriv_mulConst _ _)).mono fun b2 h2 => ?_
    intro i hi ht
    rw [h2, h1, h0, hb]
    unfold sgnGamma
    have : i = 0 ∨ i = 1 ∨ i = 2 ∨ i = 3 := by omega
    rcases this with rfl | rfl | rfl | rfl <;> rw [ht] <;> simp

theorem triv_sgnNext (j : Nat) {bj : Word Term} :
    Ensures (sgnNext freeScheme pc x j bj) fun w => ∀ i, i < 4 → (wd x (4 * j + i)).isTriv = false → w.isTriv = false := by
  unfold sgnNext
  refine (Ensures.parFor (P := fun i w => (wd x (4 * j + i)).isTriv = false → w.isTriv = false) ?_).bind ?_
  · intro i hi
    refine Ensures.ite (fun h => ?_) fun h => Ensures.pure ?_
    · refine Ensures.idx.bind fun xi ⟨h1, e1⟩ => lutUint.mono fun s hs ht => ?_
      rw [hs.triv, ← e1]
      exact (congrArg Word.isTriv (wd_lt h1)).symm.trans ht
    · intro ht
      rw [wd_ge_triv (by unfold sgnGamma at h; omega)] at ht
      cases ht
  · rintro s ⟨hl, hs⟩
    refine Ensures.pure fun i hi ht => ?_
    have hl4 : s.length = 4 := by rw [hl]; simp [trivCt, sgnGamma]
    have := hs i (by omega) ht
    have key : ∀ (l : List (Word Term)) (b : Word Term), (b.isTriv = false ∨ ∃ z ∈ l, z.isTriv = false) →
        (l.foldl (Word.add freeScheme) b).isTriv = false := by
      intro l
      induction l with
      | nil => intro b h; simpa using h
      | cons z l ih =>
        intro b h
        refine ih _ ?_
        rw [isTriv_add]
        rcases h with h | ⟨y, hy, h⟩
        · left; rw [h]; rfl
        · rcases List.mem_cons.1 hy with rfl | hy
          · left; rw [h, Bool.and_false]
          · exact .inr ⟨y, hy, h⟩
    exact key s bj (.inr ⟨_, List.getElem_mem (by omega : i < s.length), this⟩)

theorem words_sgnRec : ∀ (fuel : Nat) {n : Nat} {x : Ctxt Term} (first : Bool), Words n x → 0 < n →
    Ensures (sgnRecursionRaw freeScheme pc fuel x first) (Words 1)
  | fuel, n, x, first, hx, h0 => by
    have ex := words_iff.1 hx
    unfold sgnRecursionRaw
    refine Ensures.ite (fun h => by omega) fun _ => Ensures.ite (fun h => Ensures.pure ?_) fun h1 => ?_
    · rw [← h, hx.1]; exact hx
    · cases fuel with
      | zero => exact Ensures.panic _
      | succ fuel =>
        refine (Ensures.parFor (P := fun j w => ∀ i, i < 4 → (wd x (4 * j + i)).isTriv = false → w.isTriv = false) ?_).bind ?_
        · intro j hj
          exact Ensures.ite (fun _ => triv_sgnFirst j) fun _ => triv_sgnNext j
        · rintro b ⟨hl, hb⟩
          have hl' : b.length = (n - 1) / 4 + 1 := by rw [hl, hx.1.symm]; simp [trivCt, sgnGamma]
          refine words_sgnRec fuel (n := (n - 1) / 4 + 1) false (words_iff.2 ⟨hl', fun _ => ?_⟩) (by omega)
          rw [Nat.add_sub_cancel, wd_lt (by omega)]
          refine hb ((n - 1) / 4) (by omega) ((n - 1) % 4) (by omega) ?_
          rw [show 4 * ((n - 1) / 4) + (n - 1) % 4 = n - 1 by omega]
          exact ex.2 h0

theorem words_sgn (hx : Words n x) : Ensures (ctSgn freeScheme pc x) (Words (min n 1)) := by
  unfold ctSgn sgnImpl
  refine Ensures.call (Ensures.ite (fun h => Ensures.pure ?_) fun h0 => Ensures.ite (fun h => Ensures.pure ?_) fun h1 => ?_)
  · rw [hx.1] at h; rw [h]; exact Words.nil
  · rw [hx.1] at h; subst h; exact hx
  · rw [hx.1] at h0
    rw [show min n 1 = 1 by omega]
    refine (words_sgnRec _ true hx (by omega)).bind fun s hs => Ensures.idx.bind fun s0 ⟨h2, e0⟩ => ?_
    refine lutUint.bind fun z hz => Ensures.pure ?_
    have es := words_iff.1 hs
    refine words_iff.2 ⟨rfl, fun _ => ?_⟩
    have : (wd s (1 - 1)).isTriv = false := es.2 (by omega)
    rw [wd_lt (by omega)] at this
    have e : wd (singleCt z) (1 - 1) = z := rfl
    rw [e, hz.triv, ← e0]
    exact this

/-! ### Maximum -/

theorem words_max (hx : Words n x) (hy : Words m y) : Ensures (maxImpl freeScheme pc x y) (Words (max n m)) := by
  unfold maxImpl
  refine (Ensures.trivial _).bind fun r _ => (Ensures.trivial _).bind fun s _ => (Ensures.trivial _).bind fun s0 _ =>
    (Ensures.trivial _).bind fun s _ => ?_
  have ex := words_iff.1 hx
  have ey := words_iff.1 hy
  refine (Ensures.parFor (P := fun i w => ((wd x i).isTriv && (wd y i).isTriv) = false → w.isTriv = false) ?_).mono ?_
  · intro i hi
    refine Ensures.idx.bind fun xi ⟨h1, e1⟩ => Ensures.idx.bind fun yi ⟨h2, e2⟩ => ?_
    have pad : ∀ (x : Ctxt Term) (k : Nat) (h : i < (x ++ List.replicate k (encryptWordTriv Term pc 0)).length),
        (x ++ List.replicate k (encryptWordTriv Term pc 0))[i].isTriv = (wd x i).isTriv := by
      intro x k h
      by_cases h' : i < x.length
      · rw [List.getElem_append_left h', wd_lt h']
      · rw [List.getElem_append_right (by omega), wd_ge_triv (by omega), List.getElem_replicate]; rfl
    have hxi : xi.isTriv = (wd x i).isTriv := by rw [← e1]; exact pad _ _ _
    have hyi : yi.isTriv = (wd y i).isTriv := by rw [← e2]; exact pad _ _ _
    refine Ensures.bind (P := fun t => t.isTriv = yi.isTriv) ?_ fun t ht => ?_
    · exact Ensures.ite (fun _ => Ensures.pure (isTriv_mulConst _ _)) fun _ => lutUint.mono fun t ht => ht.triv
    · refine lutUint.mono fun z hz h => ?_
      rw [hz.triv, isTriv_add, isTriv_add, isTriv_mulConst, ht, hxi, hyi, Bool.and_comm (wd y i).isTriv, h]
      rfl
  · rintro z ⟨hl, hz⟩
    have hl' : z.length = max n m := by
      rw [hl, ← hx.1, ← hy.1]; simp [trivCt]; omega
    refine words_iff.2 ⟨hl', fun h0 => ?_⟩
    rw [wd_lt (by omega)]
    refine hz _ (by omega) ?_
    by_cases h : m ≤ n
    · rw [show max n m = n by omega, ex.2 (by omega)]; rfl
    · rw [show max n m = m by omega, ey.2 (by omega), Bool.and_false]

theorem words_ctMax (hx : Words n x) (hy : Words m y) : Ensures (ctMax freeScheme pc x y) (Words (max n m)) :=
  (words_max hx hy).call

theorem words_relu (hx : Words n x) : Ensures (ctRelu freeScheme pc x) (Words n) := by
  have := (words_max (pc := pc) Words.nil hx).call
  rwa [Nat.zero_max] at this

/-! ### Scalar multiplication -/

theorem lenAdd_pos {a b : Nat} (ha : 0 < a) (hb : 0 < b) : lenAdd a b = max a b + 1 := by
  unfold lenAdd
  rw [if_neg (by omega), if_neg (by omega)]

theorem words_ascLoop : ∀ (c : Asc) {vals : List (Ctxt Term)} {ls : List Nat} {l : Nat},
    List.Forall₂ (fun v l => Words l v ∧ 0 < l) vals ls → lenChain c ls = some l →
    Ensures (ascLoop (ascArith freeScheme pc) c vals) fun r => ∃ v, r.getLast? = some v ∧ Words l v ∧ 0 < l
  | [], vals, ls, l, h, hl => by
    unfold lenChain at hl
    refine Ensures.pure ?_
    rw [List.getLast?_eq_getElem?] at hl ⊢
    obtain ⟨h1, h2⟩ := List.getElem?_eq_some_iff.1 hl
    have hlen := h.length_eq
    refine ⟨_, List.getElem?_eq_getElem (by omega), ?_⟩
    have := h.get (i := ls.length - 1) (by omega) h1
    simp only [List.get_eq_getElem, h2] at this
    simpa only [hlen] using this
  | e :: es, vals, ls, l, h, hl => by
    unfold lenChain at hl
    unfold ascLoop
    cases h1 : ls[e.lIdx]? with
    | none => rw [h1] at hl; cases hl
    | some a =>
      cases h2 : ls[e.rIdx]? with
      | none => rw [h1, h2] at hl; cases hl
      | some b =>
        rw [h1, h2] at hl
        obtain ⟨i1, e1⟩ := List.getElem?_eq_some_iff.1 h1
        obtain ⟨i2, e2⟩ := List.getElem?_eq_some_iff.1 h2
        refine Ensures.bind (P := fun r => List.Forall₂ (fun v l => Words l v ∧ 0 < l) r
          (ls ++ [max a (b + e.rShift) + 1])) ?_ fun r hr => words_ascLoop es hr hl
        unfold ascStep
        refine Ensures.idx.bind fun vl ⟨j1, el⟩ => ?_
        have hL := h.get j1 i1
        simp only [List.get_eq_getElem, el, e1] at hL
        refine Ensures.bind (P := fun v => Words a v) (Ensures.pure hL.1.opp) fun nl hnl => ?_
        refine Ensures.idx.bind fun vr ⟨j2, er⟩ => ?_
        have hR := h.get j2 i2
        simp only [List.get_eq_getElem, er, e2] at hR
        refine Ensures.bind (P := fun v => Words (b + e.rShift) v) (Ensures.pure (hR.1.shift hR.2 _)) fun rs hrs => ?_
        refine Ensures.bind (P := fun v => Words (b + e.rShift) v) (Ensures.pure hrs.opp) fun nr hnr => ?_
        refine Ensures.bind (P := fun v => Words (max a (b + e.rShift) + 1) v) ?_ fun z hz => Ensures.pure ?_
        · have := words_add (pc := pc) (x := if e.lPos then vl else nl) (y := if e.rPos then rs else nr) (n := a)
            (m := b + e.rShift) (by split <;> [exact hL.1; exact hnl]) (by split <;> [exact hrs; exact hnr])
          rwa [lenAdd_pos hL.2 (by omega)] at this
        · exact List.rel_append h (.cons ⟨hz, by omega⟩ .nil)

theorem words_ascEval {c : Asc} {l : Nat} (hx : Words n x) (h0 : 0 < n) (hl : lenChain c [n] = some l) :
    Ensures (ascEval (ascArith freeScheme pc) c x) fun z => Words l z ∧ 0 < l := by
  unfold ascEval
  refine (words_ascLoop c (vals := [x]) (.cons ⟨hx, h0⟩ .nil) hl).bind ?_
  rintro r ⟨v, e, hv⟩
  rw [e]
  exact Ensures.pure hv

theorem ensures_mapIdx {V : Type} {m : List (Nat × V)} {k : Nat} :
    Ensures (mapIdx m k) fun v => (k, v) ∈ m ∧ m.find? (fun e => e.1 == k) = some (k, v) := by
  unfold mapIdx mapGet?
  cases h : m.find? fun e => e.1 == k with
  | none => exact Ensures.panic _
  | some e =>
    have h1 := List.mem_of_find?_eq_some h
    have h2 := List.find?_some h
    simp only [beq_iff_eq] at h2
    refine Ensures.pure ?_
    subst h2
    exact ⟨h1, rfl⟩

theorem words_reduceLoop : ∀ {rows : List (Ctxt Term)} {ls : List Nat} {cur other : Ctxt Term} {l : Nat},
    List.Forall₂ (fun v l => Words l v ∧ 0 < l) rows ls → Words l cur → 0 < l →
    Ensures (reduceLoop freeScheme pc rows cur other) (Words (ls.foldl (fun a b => max a b + 1) l))
  | [], [], _, _, _, .nil, h, _ => Ensures.pure h
  | row :: rows, m :: ls, cur, other, l, .cons h1 h2, h, h0 => by
    unfold reduceLoop
    have := words_add (pc := pc) h h1.1
    rw [lenAdd_pos h0 h1.2] at this
    refine this.bind fun z hz => ?_
    rw [List.foldl_cons]
    exact words_reduceLoop h2 hz (by omega)

theorem windows_forall {tbl : List (Nat × Asc)} : ∀ {ws : List (Int × Nat)} {ls : List Nat},
    ws.mapM (lenWindow tbl n) = some ls → List.Forall₂ (fun w l => lenWindow tbl n w = some l) ws ls
  | [], ls, h => by
    simp only [List.mapM_nil, Option.pure_def, Option.some.injEq] at h
    subst h
    exact .nil
  | w :: ws, ls, h => by
    simp only [List.mapM_cons, Option.pure_def, Option.bind_eq_bind, Option.bind_eq_some_iff, Option.some.injEq] at h
    obtain ⟨a, h1, b, h2, rfl⟩ := h
    exact .cons h1 (windows_forall h2)

theorem lenWindows_forall {tbl : List (Nat × Asc)} {ws : List (Int × Nat)} {l : Nat} (h : lenWindows tbl n ws = some l) :
    ∃ a ls, List.Forall₂ (fun w l => lenWindow tbl n w = some l) ws (a :: ls) ∧
      l = ls.foldl (fun a b => max a b + 1) a := by
  cases ws with
  | nil => cases h
  | cons w ws =>
    unfold lenWindows at h
    simp only [Option.pure_def, Option.bind_eq_bind, Option.bind_eq_some_iff, Option.some.injEq] at h
    obtain ⟨a, h1, b, h2, rfl⟩ := h
    exact ⟨a, b, .cons h1 (windows_forall h2), rfl⟩

theorem wrap_abs {k : Int} (h : k.natAbs < 2 ^ 31) :
    Returns (i32Op pc.build (k.natAbs : Int)) (k.natAbs : Int) 0 ∧ (wrapU32 (k.natAbs : Int)).toNat = k.natAbs := by
  constructor
  · unfold i32Op
    rw [if_pos (by unfold inI32; simp only [Bool.and_eq_true, decide_eq_true_eq]; omega)]
    exact Returns.pure _
  · unfold wrapU32; omega

theorem words_scalarMul_windows {k : Int} {l : Nat} {ws : List (Int × Nat)} (hx : Words n x) (h0 : 0 < n)
    (hk : k.natAbs < 2 ^ 31) (h2 : 2 ≤ k.natAbs) (hw : Ensures (windShifts pc.build k.natAbs ascBitlen) (· = ws))
    (hl : lenWindows pc.asc n ws = some l) : Ensures (ctScalarMul freeScheme pc k x) (Words l) := by
  unfold ctScalarMul scalarMulImpl
  have hxp : Words n (if k ≥ 0 then x else x.map (Word.opp freeScheme)) := by
    split
    · exact hx
    · exact hx.opp
  obtain ⟨hk1, hk2⟩ := wrap_abs (pc := pc) hk
  refine Ensures.call ((ensures_of_returns hk1).bind ?_)
  rintro _ rfl
  rw [hk2]
  refine Ensures.ite (fun h => by omega) fun _ => Ensures.ite (fun h => by omega) fun _ => ?_
  refine hw.bind fun ws' hws => ?_
  subst hws
  refine (Ensures.parFor (P := fun _ kv => ∃ c, pc.asc.find? (fun e => e.1 == kv.1) = some (kv.1, c) ∧
    ∀ l, lenChain c [n] = some l → Words l kv.2 ∧ 0 < l) ?_).bind ?_
  · intro i hi
    refine ensures_mapIdx.bind ?_
    rintro c ⟨_, hc⟩
    by_cases hcl : ∃ l, lenChain c [n] = some l
    · obtain ⟨l, hcl⟩ := hcl
      refine (words_ascEval hxp h0 hcl).expect.bind fun v hv => Ensures.pure ⟨c, hc, fun l' hl' => ?_⟩
      rw [hcl] at hl'
      injection hl' with hl'
      subst hl'
      exact hv
    · exact (Ensures.trivial _).bind fun v _ => Ensures.pure ⟨c, hc, fun l' hl' => absurd ⟨l', hl'⟩ hcl⟩
  · rintro map ⟨_, hm⟩
    have hm' : ∀ k' v, (k', v) ∈ map → ∃ c, pc.asc.find? (fun e => e.1 == k') = some (k', c) ∧
        ∀ l, lenChain c [n] = some l → Words l v ∧ 0 < l := by
      intro k' v h
      obtain ⟨i, hi, e⟩ := List.mem_iff_getElem.1 h
      have := hm i hi
      rwa [e] at this
    obtain ⟨a, ls, hf, rfl⟩ := lenWindows_forall hl
    refine (Ensures.seqFor (P := fun i v => ∀ h : i < ws'.length, ∀ l, lenWindow pc.asc n ws'[i] = some l →
      Words l v ∧ 0 < l) ?_).bind ?_
    · intro i hi
      refine Ensures.idx.bind fun wsi ⟨h1, e1⟩ => ensures_mapIdx.bind ?_
      rintro v ⟨hv, _⟩
      obtain ⟨c, hc, hv⟩ := hm' _ v hv
      have key : ∀ v' : Ctxt Term, (∀ l, lenChain c [n] = some l → Words l v' ∧ 0 < l) → ∀ h : i < ws'.length, ∀ l,
          lenWindow pc.asc n ws'[i] = some l → Words l (ctShift pc v' wsi.2) ∧ 0 < l := by
        intro v' hv' h l hl
        rw [e1] at hl
        unfold lenWindow at hl
        unfold absU32 at hc
        rw [hc] at hl
        simp only [Option.bind_some, Option.map_eq_some_iff] at hl
        obtain ⟨l', hl', rfl⟩ := hl
        obtain ⟨g1, g2⟩ := hv' l' hl'
        exact ⟨g1.shift g2 _, by omega⟩
      exact Ensures.ite (fun _ => Ensures.pure (key _ fun l hl => ⟨(hv l hl).1.opp, (hv l hl).2⟩))
        fun _ => Ensures.pure (key _ hv)
    · rintro rows ⟨hrl, hr⟩
      rw [List.length_replicate] at hrl
      have hfl := hf.length_eq
      have hrows : List.Forall₂ (fun v l => Words l v ∧ 0 < l) rows (a :: ls) := by
        refine List.forall₂_of_length_eq_of_get (by omega) fun i h1 h2 => ?_
        have := hf.get (i := i) (by omega) h2
        exact hr i h1 (by omega) _ this
      refine Ensures.ite (fun h1 => ?_) fun h1 => ?_
      · have hls : ls = [] := by
          have := hrows.length_eq
          rw [h1, List.length_cons] at this
          exact List.eq_nil_of_length_eq_zero (by omega)
        subst hls
        refine Ensures.idx.mono ?_
        rintro r ⟨hi, rfl⟩
        exact (hrows.get hi (by simp)).1
      · unfold reduceMulsquary
        refine Ensures.idx.bind fun m0 ⟨i0, e0⟩ => Ensures.idx.bind fun m1 ⟨i1, e1⟩ => ?_
        cases hrows with
        | cons g0 grest =>
          cases grest with
          | nil => simp at i1
          | cons g1 g2 =>
            simp only [List.getElem_cons_zero, List.getElem_cons_succ] at e0 e1
            subst e0 e1
            have := words_add (pc := pc) g0.1 g1.1
            rw [lenAdd_pos g0.2 g1.2] at this
            refine this.bind fun z hz => ?_
            rw [List.foldl_cons]
            exact words_reduceLoop g2 hz (by omega)

theorem agrees_of {α β : Type} {R : α → β → Prop} {m : M α} {m' : M β}
    (h : ∀ t b t', m' t = .ok (b, t') → Ensures m fun a => R a b) : Agrees R m m' :=
  fun s a s' t b t' h1 h2 => h t b t' h2 s a s' h1

theorem ensures_of_pure0 {α : Type} {m : M α} (h : Pure0 m) {t : St} {b : α} {t' : St} (e : m t = .ok (b, t')) :
    Ensures m (· = b) := fun s a s' h1 => Agrees.same h s a s' t b t' h1 e

theorem words_scalarMul (hx : Words n x) (k : Int) :
    Agrees (fun z n => Words n z) (ctScalarMul freeScheme pc k x) (lenScalarMul pc k n) := by
  unfold lenScalarMul
  refine Agrees.ite_right (fun h => Agrees.of_ensures ?_) fun h0 => Agrees.ite_right (fun h => Agrees.of_ensures ?_) fun h1 =>
    Agrees.ite_right (fun _ => Agrees.panic _) fun h2 => ?_
  · obtain ⟨hk1, hk2⟩ := wrap_abs (pc := pc) (k := k) (by omega)
    unfold ctScalarMul scalarMulImpl
    refine Ensures.call ((ensures_of_returns hk1).bind ?_)
    rintro _ rfl
    rw [hk2, if_pos h]
    exact Ensures.pure Words.nil
  · obtain ⟨hk1, hk2⟩ := wrap_abs (pc := pc) (k := k) (by omega)
    unfold ctScalarMul scalarMulImpl
    refine Ensures.call ((ensures_of_returns hk1).bind ?_)
    rintro _ rfl
    rw [hk2, if_neg (by omega), if_pos h]
    refine Ensures.pure ?_
    split
    · exact hx
    · exact hx.opp
  · refine agrees_of fun t b t' e => ?_
    simp only [Bind.bind, StateT.bind, Except.bind] at e
    cases e1 : windShifts pc.build k.natAbs ascBitlen t with
    | error _ => rw [e1] at e; cases e
    | ok p =>
      rw [e1] at e
      dsimp only at e
      cases e2 : lenWindows pc.asc n p.1 with
      | none => rw [e2] at e; cases e
      | some l =>
        rw [e2] at e
        injection e with e
        injection e with e _
        subst e
        exact words_scalarMul_windows hx (by omega) (by omega) (by omega)
          (ensures_of_pure0 (Pure0.windShifts _ _ _) (t := t) (t' := p.2) e1) e2

theorem words_shift (hx : Words n x) (k : Nat) : Agrees (fun z n => Words n z) (Pure.pure (ctShift pc x k) : M _)
    (if n = 0 ∧ k ≠ 0 then M.panic .unwrapNone else pure (n + k)) := by
  refine Agrees.ite_right (fun _ => Agrees.panic _) fun h => Agrees.pure ?_
  by_cases h0 : n = 0
  · have hk : k = 0 := by omega
    subst hk
    exact hx
  · exact hx.shift (by omega) k

theorem words_lenAddConst (h1 : pc.msgMod = 32) (h5 : pc.params.bitPrecision = 5) (hx : Words n x) (k : Int) :
    Agrees (fun z n => Words n z) (ctAddConst freeScheme pc x k) (lenAddConst n k) := by
  unfold lenAddConst
  refine Agrees.ite_right (fun h => Agrees.of_ensures ?_) fun h => Agrees.ite_right (fun _ => Agrees.panic _) fun h' =>
    Agrees.of_ensures (words_addConst h1 h5 hx h (by omega) (by omega))
  unfold ctAddConst addConstImpl
  rw [if_pos h]
  exact Ensures.call (Ensures.pure hx)

theorem words_roundAt (hx : Words n x) (p : Nat) : Agrees (fun z n => Words n z) (ctRoundAt freeScheme pc x p)
    (if p = 0 then pure n else if p > n then pure 0 else M.panic .unwrapNone) := by
  refine Agrees.ite_right (fun h => Agrees.of_ensures ?_) fun h => Agrees.ite_right (fun h' => Agrees.of_ensures ?_)
    fun _ => Agrees.panic _
  · unfold ctRoundAt roundAtImpl
    rw [if_pos h]
    exact Ensures.call (Ensures.pure hx)
  · unfold ctRoundAt roundAtImpl
    rw [if_neg h, if_pos (by rw [hx.1]; omega)]
    exact Ensures.call (Ensures.pure Words.nil)

/-! ### Other schemes -/

section
variable {S : Scheme}

/-- a word of the same shape -/
def shapeWord {C : Type} : Word C → Word Term
  | ⟨.ct _, m⟩ => ⟨.ct (.input 0), m⟩
  | ⟨.triv p, m⟩ => ⟨.triv p, m⟩

theorem shape_rel {C : Type} : ∀ x : Ctxt C, CRel (fun (_ : C) (_ : Term) => True) x (x.map shapeWord)
  | [] => .nil
  | ⟨.ct _, m⟩ :: x => .cons (.ct m trivial) (shape_rel x)
  | ⟨.triv p, m⟩ :: x => .cons (.triv p m) (shape_rel x)

theorem words_rel {C C' : Type} {R : C → C' → Prop} {x : Ctxt C} {x' : Ctxt C'} (h : CRel R x x') {n : Nat} :
    Words n x ↔ Words n x' := by
  unfold Words
  rw [h.length_eq]
  refine and_congr_right fun _ => ?_
  rw [List.getLast?_eq_getElem?, List.getLast?_eq_getElem?, h.length_eq]
  by_cases h0 : x'.length - 1 < x'.length
  · have := h.get (i := x'.length - 1) (by rw [h.length_eq]; exact h0) h0
    rw [List.getElem?_eq_getElem h0, List.getElem?_eq_getElem (by rw [h.length_eq]; exact h0)]
    simp only [List.get_eq_getElem] at this
    generalize x[x'.length - 1]'(by rw [h.length_eq]; exact h0) = w at this
    generalize x'[x'.length - 1] = w' at this
    cases this <;> simp [Encrypted]
  · have e := h.length_eq
    rw [List.getElem?_eq_none (l := x) (by omega), List.getElem?_eq_none (l := x') (by omega)]
    simp

theorem agrees_rel {Z : Prop} {C C' : Type} {R : C → C' → Prop} {m : M (Ctxt C)} {m' : M (Ctxt C')} {l : M Nat}
    (h : RelM Z (CRel R) m m') (hl : Agrees (fun z n => Words n z) m' l) : Agrees (fun z n => Words n z) m l := by
  intro s a s' t b t' h1 h2
  rcases h with ⟨c, c', k, r1, r2, q, _⟩ | ⟨h, _⟩
  · obtain ⟨_, _, _, e1⟩ := r1 s
    rw [h1] at e1
    injection e1 with e1
    injection e1 with e1
    subst e1
    obtain ⟨_, _, _, e2⟩ := r2 s
    exact (words_rel q).2 (hl s c' _ t b t' e2 h2)
  · obtain ⟨f, hf⟩ := h s
    rw [h1] at hf
    cases hf

/-- every operation on `T` agrees with that on numbers of words -/
structure LenArith {T : Type} (A : Arith T) (L : Arith Nat) (Q : T → Nat → Prop) : Prop where
  zero : Q A.zero L.zero
  opp : ∀ {x n}, Q x n → Agrees Q (A.opp x) (L.opp n)
  shift : ∀ {x n} k, Q x n → Agrees Q (A.shift x k) (L.shift n k)
  add : ∀ {x n y m}, Q x n → Q y m → Agrees Q (A.add x y) (L.add n m)
  sub : ∀ {x n y m}, Q x n → Q y m → Agrees Q (A.sub x y) (L.sub n m)
  addNoisy : ∀ {x n y m}, Q x n → Q y m → Agrees Q (A.addNoisy x y) (L.addNoisy n m)
  subNoisy : ∀ {x n y m}, Q x n → Q y m → Agrees Q (A.subNoisy x y) (L.subNoisy n m)
  addConst : ∀ {x n} k, Q x n → Agrees Q (A.addConst x k) (L.addConst n k)
  scalarMul : ∀ {x n} k, Q x n → Agrees Q (A.scalarMul k x) (L.scalarMul k n)
  sgn : ∀ {x n}, Q x n → Agrees Q (A.sgn x) (L.sgn n)
  max : ∀ {x n y m}, Q x n → Q y m → Agrees Q (A.max x y) (L.max n m)
  relu : ∀ {x n}, Q x n → Agrees Q (A.relu x) (L.relu n)
  mul : ∀ {x n y m}, Q x n → Q y m → Agrees Q (A.mul x y) (L.mul n m)
  squ : ∀ {x n}, Q x n → Agrees Q (A.squ x) (L.squ n)
  roundAt : ∀ {x n} p, Q x n → Agrees Q (A.roundAt x p) (L.roundAt n p)

theorem lenArith (S : Scheme) {pc : Cloud} (h1 : pc.msgMod = 32) (h5 : pc.params.bitPrecision = 5) :
    LenArith (arithCt S pc) (arithLen pc) fun z n => Words n z := by
  have H := (schemeRel_true S freeScheme).arithCt pc
  have R := fun x : Ctxt S.C => shape_rel x
  have W : ∀ {x : Ctxt S.C} {n : Nat}, Words n x → Words n (x.map shapeWord) := fun h => (words_rel (shape_rel _)).1 h
  exact {
    zero := ⟨rfl, by simp [arithCt, ascArith, ctZero, emptyCt]⟩
    opp := fun h => agrees_rel (H.opp (R _)) (Agrees.pure (W h).opp)
    shift := fun k h => agrees_rel (H.shift k (R _)) (words_shift (W h) k)
    add := fun h h' => agrees_rel (H.add (R _) (R _)) (Agrees.of_ensures (words_add (W h) (W h')))
    sub := fun h h' => agrees_rel (H.sub (R _) (R _)) (Agrees.of_ensures (words_sub (W h) (W h')))
    addNoisy := fun h h' => agrees_rel (H.addNoisy (R _) (R _)) (Agrees.of_ensures (words_addSub (W h) (W h')).call)
    subNoisy := fun h h' => agrees_rel (H.subNoisy (R _) (R _)) (Agrees.of_ensures (words_addSub (W h) (W h')).call)
    addConst := fun k h => agrees_rel (H.addConst k (R _)) (words_lenAddConst h1 h5 (W h) k)
    scalarMul := fun k h => agrees_rel (H.scalarMul k (R _)) (words_scalarMul (W h) k)
    sgn := fun h => agrees_rel (H.sgn (R _)) (Agrees.of_ensures (words_sgn (W h)))
    max := fun h h' => agrees_rel (H.max (R _) (R _)) (Agrees.of_ensures (words_ctMax (W h) (W h')))
    relu := fun h => agrees_rel (H.relu (R _)) (Agrees.of_ensures (words_relu (W h)))
    mul := fun _ _ => Agrees.panic _
    squ := fun _ => Agrees.panic _
    roundAt := fun p h => agrees_rel (H.roundAt p (R _)) (words_roundAt (W h) p) }

end

/-! ### Programs and networks -/

section
variable {T : Type} {A : Arith T} {L : Arith Nat} {Q : T → Nat → Prop} (H : LenArith A L Q)
include H

theorem LenArith.instr {xs : List T} {ns : List Nat} (h : List.Forall₂ Q xs ns) (i : Instr) :
    Agrees Q (i.run A xs) (i.run L ns) := by
  cases i
  case zero => exact Agrees.pure H.zero
  case opp i => exact (Agrees.idx h i).bind fun _ _ h => H.opp h
  case shift i k => exact (Agrees.idx h i).bind fun _ _ h => H.shift k h
  case add i j => exact (Agrees.idx h i).bind fun _ _ h1 => (Agrees.idx h j).bind fun _ _ h2 => H.add h1 h2
  case sub i j => exact (Agrees.idx h i).bind fun _ _ h1 => (Agrees.idx h j).bind fun _ _ h2 => H.sub h1 h2
  case addConst i k => exact (Agrees.idx h i).bind fun _ _ h => H.addConst k h
  case scalarMul k i => exact (Agrees.idx h i).bind fun _ _ h => H.scalarMul k h
  case sgn i => exact (Agrees.idx h i).bind fun _ _ h => H.sgn h
  case max i j => exact (Agrees.idx h i).bind fun _ _ h1 => (Agrees.idx h j).bind fun _ _ h2 => H.max h1 h2
  case relu i => exact (Agrees.idx h i).bind fun _ _ h => H.relu h
  case mul i j => exact (Agrees.idx h i).bind fun _ _ h1 => (Agrees.idx h j).bind fun _ _ h2 => H.mul h1 h2
  case squ i => exact (Agrees.idx h i).bind fun _ _ h => H.squ h
  case roundAt i p => exact (Agrees.idx h i).bind fun _ _ h => H.roundAt p h

theorem LenArith.prog : ∀ (p : List Instr) {xs : List T} {ns : List Nat}, List.Forall₂ Q xs ns →
    Agrees (List.Forall₂ Q) (runProg A p xs) (runProg L p ns)
  | [], _, _, h => Agrees.pure h
  | i :: p, _, _, h => (H.instr h i).bind fun _ _ hz => LenArith.prog p (List.rel_append h (.cons hz .nil))

theorem LenArith.affineLoop : ∀ (w : List Int) {xs : List T} {ns : List Nat} {r : T} {l : Nat}, List.Forall₂ Q xs ns → Q r l →
    Agrees Q (affineLoop A w xs r) (affineLoop L w ns l)
  | [], _, _, _, _, _, hr => Agrees.pure hr
  | _ :: _, _, _, _, _, .nil, hr => Agrees.pure hr
  | k :: w, _, _, _, _, .cons h1 h2, hr => (H.scalarMul k h1).bind fun _ _ hs => (H.add hr hs).bind fun _ _ hz =>
    LenArith.affineLoop w h2 hz

theorem LenArith.affinePool (w : List Int) (b : Int) {xs : List T} {ns : List Nat} (h : List.Forall₂ Q xs ns) :
    Agrees Q (affinePool A w xs b) (affinePool L w ns b) :=
  (H.affineLoop w h H.zero).bind fun _ _ hz => H.addConst b hz

theorem LenArith.applyWeights : ∀ (w : List Int) {xs : List T} {ns : List Nat}, List.Forall₂ Q xs ns →
    Agrees (List.Forall₂ Q) (applyWeights A w xs) (applyWeights L w ns)
  | [], _, _, _ => Agrees.pure .nil
  | _ :: _, _, _, .nil => Agrees.pure .nil
  | k :: w, _, _, .cons h1 h2 => (H.scalarMul k h1).bind fun _ _ hs => (LenArith.applyWeights w h2).bind fun _ _ hz =>
    Agrees.pure (.cons hs hz)

theorem LenArith.maxChunks : ∀ {xs : List T} {ns : List Nat}, List.Forall₂ Q xs ns →
    Agrees (List.Forall₂ Q) (maxChunks A xs) (maxChunks L ns)
  | _, _, .nil => Agrees.pure .nil
  | _, _, .cons h .nil => Agrees.pure (.cons h .nil)
  | _, _, .cons h1 (.cons h2 h3) => (H.max h1 h2).bind fun _ _ hm => (LenArith.maxChunks h3).bind fun _ _ hz =>
    Agrees.pure (.cons hm hz)

theorem LenArith.maxPoolRecursion : ∀ (fuel : Nat) {xs : List T} {ns : List Nat}, List.Forall₂ Q xs ns →
    Agrees Q (maxPoolRecursion A fuel xs) (maxPoolRecursion L fuel ns)
  | fuel, _, _, .nil => by unfold Parm.maxPoolRecursion; exact Agrees.pure H.zero
  | fuel, _, _, .cons h .nil => by unfold Parm.maxPoolRecursion; exact Agrees.pure h
  | 0, _, _, .cons h1 (.cons h2 h3) => Agrees.panic _
  | fuel + 1, _, _, .cons h1 (.cons h2 h3) => by
    unfold Parm.maxPoolRecursion
    exact (H.maxChunks (.cons h1 (.cons h2 h3))).bind fun _ _ hz => LenArith.maxPoolRecursion fuel hz

theorem LenArith.evalPerc (p : Perceptron) {xs : List T} {ns : List Nat} (h : List.Forall₂ Q xs ns) :
    Agrees Q (evalPerc A p xs) (evalPerc L p ns) := by
  unfold Parm.evalPerc
  cases p.t
  · refine (H.applyWeights p.w h).bind fun a b hw => ?_
    rw [hw.length_eq]
    exact (H.maxPoolRecursion _ hw).bind fun _ _ hz => H.addConst p.b hz
  · exact H.affinePool p.w p.b h
  · exact (H.affinePool p.w p.b h).bind fun _ _ hz => H.relu hz

theorem LenArith.evalLayer : ∀ (l : List Perceptron) {xs : List T} {ns : List Nat}, List.Forall₂ Q xs ns →
    Agrees (List.Forall₂ Q) (evalLayer A l xs) (evalLayer L l ns)
  | [], _, _, _ => Agrees.pure .nil
  | p :: l, _, _, h => (H.evalPerc p h).bind fun _ _ h1 => (LenArith.evalLayer l h).bind fun _ _ h2 =>
    Agrees.pure (.cons h1 h2)

theorem LenArith.evalLayers : ∀ (ls : List (List Perceptron)) {xs o : List T} {ns k : List Nat}, List.Forall₂ Q xs ns →
    List.Forall₂ Q o k → Agrees (List.Forall₂ Q) (evalLayers A ls xs o) (evalLayers L ls ns k)
  | [], _, _, _, _, _, h => Agrees.pure h
  | l :: ls, _, _, _, _, h, _ => (H.evalLayer l h).bind fun _ _ hz => LenArith.evalLayers ls hz hz

theorem LenArith.accumulate : ∀ {xs : List T} {ns : List Nat} {r : T} {l : Nat}, List.Forall₂ Q xs ns → Q r l →
    Agrees Q (accumulate A xs r) (accumulate L ns l)
  | _, _, _, _, .nil, hr => Agrees.pure hr
  | _, _, _, _, .cons h1 h2, hr => (H.add hr h1).bind fun _ _ hz => LenArith.accumulate h2 hz

end

end Wt
end Parm
