import Verif.Proof.Tests
import Verif.Props.Lookup

/-!
# The shipped test-suite: property C71
-/

namespace Parm
variable {S : Scheme} {ck : ClientKey S} {pc : Cloud} {B D : Nat}

/-- the only iterations whose outcome depends on the values drawn: the recodings that overflow in a debug build -/
def Case.NoOverflow : Case → Prop
  | .scm _ _ k => DebugSafe k
  | .koyTsu k => ((koyamaTsuruokaVec .debug k) (St.init Sched.seq)).toOption.isSome = true
  | _ => True

/-- the recoding test itself, in either build -/
theorem koyTsu_pass {k : Nat} (hk : k < 2 ^ 32)
    (hb : pc.build = .release ∨ ((koyamaTsuruokaVec .debug k) (St.init Sched.seq)).toOption.isSome = true) :
    ∃ ds, Returns (koyamaTsuruokaVec pc.build k) ds 0 ∧ (∀ d ∈ ds, IsDigit d) ∧ value ds = k ∧ ds.length ≤ 63 := by
  by_cases h0 : k = 0
  · subst h0
    exact ⟨[0], C28_zero _, by intro d hd; simp at hd; subst hd; exact Or.inr (Or.inl rfl), rfl, by simp⟩
  obtain ⟨ds, d1, d2, d3, _, d5⟩ := C28_koyama_tsuruoka h0 hk
  have hl : ds.length ≤ 63 := by
    have e := Nat.log2_self_le h0
    have := (d5 (Nat.log2 k) e Nat.lt_log2_self).2
    have h32 : Nat.log2 k < 32 := (Nat.log2_lt h0).2 hk
    omega
  refine ⟨ds, ?_, d2, d3, hl⟩
  cases hbb : pc.build with
  | release => exact d1
  | debug =>
    have hs := hb.resolve_left (by rw [hbb]; decide)
    rcases DebugLike.koyamaTsuruokaVec k with ⟨ds', e1, e2⟩ | h | ⟨f, h1, _⟩
    · rw [(d1.unique e2).1]
      exact e1
    · rw [h] at hs
      simp [Except.toOption] at hs
    · rw [h1] at hs
      simp [Except.toOption] at hs

theorem nnInputs_ok (st : Setting S ck pc B D) (seed : Nat → Nat → Nat) : ∀ (i : Nat) (ins : List (List Int × List Bool)),
    (∀ p ∈ ins, DrawnVec 5 p.1 ∧ p.2.length = p.1.length) →
    Yields (nnInputs ck pc seed i ins) fun r =>
      List.Forall₂ (fun x v => x = v ∧ v.natAbs < 2 ^ 5) r.1 (ins.map fun p => value p.1) ∧
      List.Forall₂ (fun x v => Valid ck B x v ∧ x.length ≤ 5) r.2 (ins.map fun p => value p.1)
  | _, [], _ => Yields.pure ⟨.nil, .nil⟩
  | i, (v, f) :: ins, h => by
    obtain ⟨h1, h2⟩ := h (v, f) (by simp)
    unfold nnInputs
    refine Yields.step (convertVec_ok (by rw [h1.1]; norm_num) h1.digits) ?_
    refine Yields.bind (nnInputs_ok st seed (i + 1) ins fun p hp => h p (by simp [hp])) fun r hr => ?_
    have hlt := value_abs_lt h1.digits
    rw [h1.1] at hlt
    exact Yields.pure ⟨.cons ⟨rfl, hlt⟩ hr.1, .cons ⟨encryptFlags_valid st (seed i) 0 v f h1.digits h2,
      by rw [encryptFlags_length, h1.1]⟩ hr.2⟩

theorem decryptAll_ok (st : Setting S ck pc B D) : ∀ {zs : List (Ctxt S.C)} {vs : List Int},
    List.Forall₂ (fun x v => Valid ck B x v ∧ x.length ≤ 63) zs vs →
    Yields (zs.mapM fun co => decryptCt ck pc co) fun ms => ms = vs
  | [], _, .nil => by rw [List.mapM_nil]; exact Yields.pure rfl
  | z :: zs, v :: vs, .cons h hs => by
    rw [List.mapM_cons]
    refine Yields.step (decryptCt_ok st h.1 h.2) ?_
    refine Yields.bind (decryptAll_ok st hs) ?_
    rintro _ rfl
    exact Yields.pure rfl

theorem drawnLayers_ok : ∀ {n : Nat} {ls : List (List Perceptron)}, n ≤ 5 → DrawnLayers n ls →
    ∀ l ∈ ls, ∀ p ∈ l, PercOk SmallW SmallB p ∧ p.w.length ≤ 5
  | _, [], _, _ => fun l hl => by simp at hl
  | n, l :: ls, hn, ⟨h1, h2, h3⟩ => by
    intro l' hl' p hp
    rcases List.mem_cons.1 hl' with rfl | hl'
    · obtain ⟨a1, a2, a3⟩ := h2 p hp
      exact ⟨⟨a2, a3⟩, by omega⟩
    · exact drawnLayers_ok (by omega) h3 l' hl' p hp

theorem forM_pass {α : Type} {f : α → M PUnit} : ∀ (l : List α), (∀ a ∈ l, Yields (f a) fun _ => True) →
    Yields (l.forM f) fun _ => True
  | [], _ => Yields.pure trivial
  | a :: l, h => Yields.bind (h a (by simp)) fun _ _ => forM_pass l fun b hb => h b (by simp [hb])

/-- two operations at once, as in the tests of addition -/
theorem addSub_pass (st : Setting S ck pc B D) {c1 c2 : Ctxt S.C} {m1 m2 : Int} (h1 : Valid ck B c1 m1) (h2 : Valid ck B c2 m2)
    (hl1 : c1.length ≤ 62) (hl2 : c2.length ≤ 62) {Q : Prop}
    {rest : Ctxt S.C → Ctxt S.C → Int → Int → Int → Int → M Unit}
    (hrest : ∀ a b, Valid ck B a (m1 + m2) → Valid ck B b (m1 - m2) → a.length ≤ 63 → b.length ≤ 63 →
      Yields (rest a b (m1 + m2) (m1 - m2) (m1 + m2) (m1 - m2)) fun _ => Q) :
    Yields (do
      let cA ← (arithCt S pc).add c1 c2
      let cS ← (arithCt S pc).sub c1 c2
      let mA ← decryptCt ck pc cA
      let mS ← decryptCt ck pc cS
      let pA ← (arithI64 pc.build).add m1 m2
      let pS ← (arithI64 pc.build).sub m1 m2
      rest cA cS mA mS pA pS) fun _ => Q := by
  refine Yields.bind (ctAdd_valid st h1 h2) fun a ha => ?_
  refine Yields.bind (ctSub_valid st h1 h2) fun b hb => ?_
  have la : a.length ≤ 63 := by have := ha.2; omega
  have lb : b.length ≤ 63 := by have := hb.2; omega
  refine Yields.step (decryptCt_ok st ha.1 la) (Yields.step (decryptCt_ok st hb.1 lb) ?_)
  exact Yields.step (i64Op_fits pc.build (ha.1.isI64 la)) (Yields.step (i64Op_fits pc.build (hb.1.isI64 lb))
    (hrest a b ha.1 hb.1 la lb))

theorem decryptToVec_ok (st : Setting S ck pc B D) {x : Ctxt S.C} {v : Int} (h : Valid ck B x v) :
    Yields (parmDecryptToVec ck x).expect fun _ => True := by
  obtain ⟨d, hd, -⟩ := h
  refine Yields.expect ?_
  unfold parmDecryptToVec
  have : ∀ (y : Ctxt S.C) (e : Nat → Int), Holds ck B 1 y e →
      Yields (y.mapM fun ci => decryptMi (some ck) ci) fun _ => True := by
    intro y
    induction y with
    | nil => intro e _; rw [List.mapM_nil]; exact Yields.pure trivial
    | cons a y ih =>
      intro e he
      rw [List.mapM_cons]
      have h0 := he 0 (by simp)
      refine Yields.step (decryptMi_spec h0.1 (by have := st.tol8 (k := 1) (by norm_num); omega)) ?_
      exact Yields.bind (ih (fun i => e (i + 1)) fun i hi => he (i + 1) (by simpa using hi)) fun _ _ => Yields.pure trivial
  exact this x d hd

/-- **C71.** No test of the shipped suite can fail by chance.  For every iteration of every test, every choice of the values
it draws and of the encryption randomness, every schedule and every key of the setting: the iteration passes — always in a
release build, and in a debug build whenever the recoding it exercises does not overflow. -/
theorem C71_pass (st : Setting S ck pc B D) (ha : pc.asc = asc12) (seed : Nat → Nat → Nat) (c : Case) (hd : c.Drawn)
    (hb : pc.build = .release ∨ c.NoOverflow) : Yields (c.run ck pc seed) fun _ => True := by
  cases c with
  | decryptTriv =>
    exact Yields.step (decryptCt_ok st (Valid.trivCt st 62) (by simp [trivCt])) (M.check_pass rfl)
  | encInt m =>
    obtain ⟨h1, h2⟩ := hd
    refine Yields.bind (parmEncrypt_valid st pc.build (seed 0) (m := m) (by omega) (by omega) (w := 62) (by norm_num)).expect
      fun c hc => ?_
    refine Yields.step (decryptCt_ok st hc.2.1 (by omega)) (M.check_pass ?_)
    rw [Nat.mod_eq_of_lt (by omega)]
    split_ifs <;> omega
  | encVec v =>
    have hl : v.length = 62 := hd.1
    refine Yields.bind (parmEncryptFromVec_valid st (seed 0) hd.digits).expect fun c hc => ?_
    have hv : Valid ck B c (value v) := ⟨_, hc.2.1, by rw [hc.1, value_eq_getD]⟩
    refine Yields.step (decryptCt_ok st hv (by omega)) ?_
    exact Yields.step (convertVec_ok (by omega) hd.digits) (M.check_pass rfl)
  | decrMode v f =>
    obtain ⟨h1, h2⟩ := hd
    have hl : v.length = 62 := h1.1
    refine Yields.step (convertVec_ok (by omega) h1.digits) ?_
    exact Yields.step (decryptCt_ok st (encryptFlags_valid st (seed 0) 0 v f h1.digits h2) (by rw [encryptFlags_length]; omega))
      (M.check_pass rfl)
  | word ms mo fs fo k =>
    obtain ⟨-, -, k1, k2⟩ := hd
    have hs := encryptOne_enc st (seed 0 0) fs ms
    have ho := encryptOne_enc st (seed 1 0) fo mo
    obtain ⟨w1, w2, -, w4⟩ := C34_word_ops st hs ho
    refine Yields.bind (M.check_pass (by cases fs <;> rfl)) fun _ _ => ?_
    refine Yields.bind (checkWord_pass st hs (by norm_num)) fun _ _ => ?_
    refine Yields.bind (checkWord_pass st ho (by norm_num)) fun _ _ => ?_
    refine Yields.bind (checkWord_pass st w1 (by norm_num)) fun _ _ => ?_
    refine Yields.bind (checkWord_pass st w2 (by norm_num)) fun _ _ => ?_
    refine Yields.bind (checkWord_pass st (w4 k (by omega) (by omega)) (by omega)) fun _ _ => ?_
    exact checkWord_pass st (addHalf_twice st hs) (by norm_num)
  | pbs m f =>
    have hw := encryptOne_enc st (seed 0 0) f m
    have e32 : pc.params.plaintextSpaceSize = 32 := by
      unfold Params.plaintextSpaceSize
      rw [st.bitPrecision]
    have hlut : ∀ v ∈ ([0,1,2,3,4,5,6,7,8,7,6,5,4,3,2,1] : List Nat), v < 32 := by decide
    obtain ⟨r, n, h1, h2, -, -⟩ := evalLut5Uint_spec st (lut := [0,1,2,3,4,5,6,7,8,7,6,5,4,3,2,1]) (by simp) hlut
      (st.wt8 (by norm_num)) hw
    unfold Case.run
    simp only [e32]
    refine Yields.step h1 ?_
    have b0 := Int.emod_nonneg m (show (32 : Int) ≠ 0 by norm_num)
    have b1 := Int.emod_lt_of_pos m (show (0 : Int) < 32 by norm_num)
    by_cases hm : m % 32 < 16
    · have hlt : (m % (32 : Nat)).toNat < [0,1,2,3,4,5,6,7,8,7,6,5,4,3,2,1].length := by simp; omega
      have hi := Returns.idx (l := [0,1,2,3,4,5,6,7,8,7,6,5,4,3,2,1]) hlt
      rw [if_pos (by omega)]
      refine Yields.step (hi.bind0 (Returns.pure _)) ?_
      refine checkWord_pass st (k := 1) ?_ (by norm_num)
      unfold tableAt at h2
      rw [if_pos hm] at h2
      convert h2 using 1
      simp only [List.getD_eq_getElem?_getD, List.getElem?_map]
      rw [show (m % 32).toNat = (m % ((32 : Nat) : Int)).toNat from rfl, List.getElem?_eq_getElem hlt]
      rfl
    · have hlt : (m % (32 : Nat)).toNat - 32 / 2 < [0,1,2,3,4,5,6,7,8,7,6,5,4,3,2,1].length := by simp; omega
      have hi := Returns.idx (l := [0,1,2,3,4,5,6,7,8,7,6,5,4,3,2,1]) hlt
      rw [if_neg (by omega)]
      refine Yields.step (hi.bind0 (Returns.pure _)) ?_
      refine checkWord_pass st (k := 1) ?_ (by norm_num)
      unfold tableAt at h2
      rw [if_neg hm] at h2
      convert h2 using 1
      simp only [List.getD_eq_getElem?_getD, List.getElem?_map]
      rw [show (m % 32 - 16).toNat = (m % ((32 : Nat) : Int)).toNat - 32 / 2 by omega, List.getElem?_eq_getElem hlt]
      rfl
  | addSub v1 f1 v2 f2 =>
    obtain ⟨⟨bl, hbl, h1, h2⟩, l1, l2⟩ := hd
    have h61 : bl ≤ 61 := by
      have : ∀ b ∈ addBitlens, b ≤ 61 := by decide
      exact this bl hbl
    have a1 := h1.length_le
    have a2 := h2.length_le
    refine Yields.step (convertVec_ok (by omega) h1.digits) (Yields.step (convertVec_ok (by omega) h2.digits) ?_)
    have V1 := encryptFlags_valid st (seed 0) 0 v1 f1 h1.digits l1
    have V2 := encryptFlags_valid st (seed 1) 0 v2 f2 h2.digits l2
    refine Yields.bind (ctAdd_valid st V1 V2) fun a ha => ?_
    refine Yields.bind (ctSub_valid st V1 V2) fun b hb => ?_
    rw [encryptFlags_length, encryptFlags_length] at ha hb
    have la : a.length ≤ 63 := by have := ha.2; omega
    have lb : b.length ≤ 63 := by have := hb.2; omega
    refine Yields.step (decryptCt_ok st ha.1 la) (Yields.step (decryptCt_ok st hb.1 lb) ?_)
    refine Yields.bind (decryptToVec_ok st ha.1) fun _ _ => Yields.bind (decryptToVec_ok st hb.1) fun _ _ => ?_
    refine Yields.step (i64Op_fits pc.build (ha.1.isI64 la)) (Yields.step (i64Op_fits pc.build (hb.1.isI64 lb)) ?_)
    exact Yields.bind (M.check_pass rfl) fun _ _ => M.check_pass rfl
  | addConst v f c =>
    obtain ⟨h1, h2, l1⟩ := hd
    have a1 := h1.length_le
    have a2 := h2.length_le
    have hc := value_abs_lt h2.digits
    have hc8 : (value c).natAbs < 2 ^ 8 := hc.trans_le (Nat.pow_le_pow_right (by norm_num) a2)
    refine Yields.step (convertVec_ok (by omega) h1.digits) (Yields.step (convertVec_ok (by omega) h2.digits) ?_)
    have V := encryptFlags_valid st (seed 0) 0 v f h1.digits l1
    refine op_check st (ins := .addConst 0 (value c)) (xs := [encryptFlags ck pc (seed 0) 0 v f]) (vs := [value v]) (l := 9)
      ?_ (by norm_num) ?_ ?_ trivial
    · refine (ctAddConst_valid st V (k := value c) (by omega) (by omega)).mono fun z hz => ⟨hz.1, ?_⟩
      have := hz.2 8 hc8
      rw [encryptFlags_length] at this
      omega
    · intro x hx
      simp only [List.mem_singleton] at hx
      subst hx
      exact value_isI64 (by omega) h1.digits
    · exact ⟨by simp, by omega, by omega⟩
  | addZeros l1 v1 r1 l2 v2 r2 =>
    have key : ∀ (l : Nat) (v : List Int) (r : Nat) (sd : Nat → Nat), (∀ d ∈ v, IsDigit d) →
        Valid ck B (trivCt S.C pc r ++ encryptAll ck pc sd v ++ trivCt S.C pc l) (value (List.replicate r 0 ++ v ++ List.replicate l 0)) ∧
        (trivCt S.C pc r ++ encryptAll ck pc sd v ++ trivCt S.C pc l).length = r + v.length + l ∧
        ∀ d ∈ List.replicate r (0 : Int) ++ v ++ List.replicate l 0, IsDigit d := by
      intro l v r sd hv
      have V := encryptFlags_valid st sd 0 v (List.replicate v.length true) hv (by simp)
      refine ⟨(((Valid.trivCt st r).append V).append (Valid.trivCt st l)).congr ?_, ?_, ?_⟩
      · rw [value_append, value_append, value_replicate_zero, value_replicate_zero]
        simp [trivCt]
      · simp [trivCt, encryptAll, encryptFlags_length]; omega
      · intro d hd
        simp only [List.mem_append, List.mem_replicate] at hd
        rcases hd with (⟨_, rfl⟩ | hd) | ⟨_, rfl⟩
        · exact Or.inr (Or.inl rfl)
        · exact hv d hd
        · exact Or.inr (Or.inl rfl)
    have hd' : (∀ d ∈ v1, IsDigit d) ∧ (∀ d ∈ v2, IsDigit d) ∧ r1 + v1.length + l1 ≤ 62 ∧ r2 + v2.length + l2 ≤ 62 := by
      rcases hd with ⟨rfl, d1, rfl, rfl, d2, rfl⟩ | ⟨rfl, d1, rfl, rfl, d2, rfl⟩ <;>
        exact ⟨d1.digits, d2.digits, by have := d1.1; omega, by have := d2.1; omega⟩
    obtain ⟨d1, d2, n1, n2⟩ := hd'
    obtain ⟨V1, L1, D1⟩ := key l1 v1 r1 (seed 0) d1
    obtain ⟨V2, L2, D2⟩ := key l2 v2 r2 (seed 1) d2
    refine Yields.step (convertVec_ok (by simp; omega) D1) (Yields.step (convertVec_ok (by simp; omega) D2) ?_)
    exact addSub_pass st V1 V2 (by omega) (by omega) (rest := fun _ _ mA mS pA pS => do M.check (mA = pA); M.check (mS = pS))
      fun _ _ _ _ _ _ => Yields.bind (M.check_pass rfl) fun _ _ => M.check_pass rfl
  | max v1 f1 v2 f2 =>
    obtain ⟨⟨h1, h2⟩, l1, l2⟩ := hd
    have a1 := h1.length_le
    have a2 := h2.length_le
    refine Yields.step (convertVec_ok (by omega) h1.digits) (Yields.step (convertVec_ok (by omega) h2.digits) ?_)
    refine op_check st (ins := .max 0 1) (xs := [_, _]) (vs := [value v1, value v2]) (l := 7)
      ((ctMax_valid st (encryptFlags_valid st (seed 0) 0 v1 f1 h1.digits l1)
        (encryptFlags_valid st (seed 1) 0 v2 f2 h2.digits l2)).mono fun z hz => ⟨hz.1, ?_⟩) (by norm_num) ?_ ⟨by simp, by simp⟩ trivial
    · have := hz.2
      rw [encryptFlags_length, encryptFlags_length] at this
      omega
    · intro x hx
      simp only [List.mem_cons, List.not_mem_nil, or_false] at hx
      rcases hx with rfl | rfl
      · exact value_isI64 (by omega) h1.digits
      · exact value_isI64 (by omega) h2.digits
  | maxEmpty =>
    refine Yields.bind (ctMax_valid st Valid.nil Valid.nil) fun z hz => ?_
    exact Yields.step (decryptCt_ok st hz.1 (by have h := hz.2; have e : List.length (emptyCt S.C) = 0 := rfl; omega)) (M.check_pass rfl)
  | sgn v f =>
    obtain ⟨h1, l1⟩ := hd
    have a1 : v.length = 7 := h1.1
    refine Yields.step (convertVec_ok (by omega) h1.digits) ?_
    refine op_check st (ins := .sgn 0) (xs := [_]) (vs := [value v]) (l := 7)
      ((ctSgn_valid st (encryptFlags_valid st (seed 0) 0 v f h1.digits l1)).mono fun z hz => ⟨hz.1, ?_⟩) (by norm_num) ?_ (by
        show 0 < 1; norm_num) trivial
    · have := hz.2
      rw [encryptFlags_length] at this
      omega
    · intro x hx
      simp only [List.mem_singleton] at hx
      subst hx
      exact value_isI64 (by omega) h1.digits
  | sgnEmpty =>
    refine Yields.bind (ctSgn_valid st Valid.nil) fun z hz => ?_
    exact Yields.step (decryptCt_ok st hz.1 (by have h := hz.2; have e : List.length (emptyCt S.C) = 0 := rfl; omega)) (M.check_pass rfl)
  | round v f pos =>
    obtain ⟨h1, l1, hp⟩ := hd
    have a1 : v.length = 5 := h1.1
    refine Yields.step (convertVec_ok (by omega) h1.digits) ?_
    refine op_check st (ins := .roundAt 0 pos) (xs := [_]) (vs := [value v]) (l := 9)
      ((ctRoundAt_valid st (encryptFlags_valid st (seed 0) 0 v f h1.digits l1) pos).mono fun z hz => ⟨hz.1, ?_⟩) (by norm_num) ?_ (by
        show 0 < 1; norm_num) (by show pos ≤ 62; omega)
    · have := hz.2
      rw [encryptFlags_length] at this
      omega
    · intro x hx
      simp only [List.mem_singleton] at hx
      subst hx
      exact value_isI64 (by omega) h1.digits
  | roundEmpty =>
    refine Yields.bind (ctRoundAt_valid st Valid.nil 0) fun z hz => ?_
    exact Yields.step (decryptCt_ok st hz.1 (by have h := hz.2; have e : ([] : Ctxt S.C).length = 0 := rfl; omega)) (M.check_pass rfl)
  | mul v1 f1 v2 f2 =>
    obtain ⟨⟨bl, hbl, h1, h2⟩, l1, l2⟩ := hd
    have h9 : bl ≤ 9 := by
      have : ∀ b ∈ mulBitlens, b ≤ 9 := by decide
      exact this bl hbl
    have a1 := h1.length_le
    have a2 := h2.length_le
    refine Yields.step (convertVec_ok (by omega) h1.digits) (Yields.step (convertVec_ok (by omega) h2.digits) ?_)
    refine op_check st (ins := .mul 0 1) (xs := [_, _]) (vs := [value v1, value v2]) (l := mulLen 9)
      ((ctMul_valid st (encryptFlags_valid st (seed 0) 0 v1 f1 h1.digits l1)
        (encryptFlags_valid st (seed 1) 0 v2 f2 h2.digits l2) (by rw [encryptFlags_length, encryptFlags_length]; omega)).mono
        fun z hz => ⟨hz.1, ?_⟩) (by decide) ?_ ⟨by simp, by simp⟩ trivial
    · have := hz.2
      rw [encryptFlags_length, encryptFlags_length] at this
      exact this.trans (mulLen_mono (by omega))
    · intro x hx
      simp only [List.mem_cons, List.not_mem_nil, or_false] at hx
      rcases hx with rfl | rfl
      · exact value_isI64 (by omega) h1.digits
      · exact value_isI64 (by omega) h2.digits
  | squ v f =>
    obtain ⟨⟨bl, hbl, h1⟩, l1⟩ := hd
    have h9 : bl ≤ 9 := by
      have : ∀ b ∈ squBitlens, b ≤ 9 := by decide
      exact this bl hbl
    have a1 : v.length = bl := h1.1
    refine Yields.step (convertVec_ok (by omega) h1.digits) ?_
    refine op_check st (ins := .squ 0) (xs := [_]) (vs := [value v]) (l := squLen 9)
      ((ctSqu_valid st (encryptFlags_valid st (seed 0) 0 v f h1.digits l1) (by rw [encryptFlags_length]; omega)).mono
        fun z hz => ⟨hz.1.congr (by show _ = value v ^ 2; ring), ?_⟩) (by decide) ?_ (by show 0 < 1; norm_num) trivial
    · have := hz.2
      rw [encryptFlags_length] at this
      exact this.trans (squLen_mono (by omega) (by norm_num))
    · intro x hx
      simp only [List.mem_singleton] at hx
      subst hx
      exact value_isI64 (by omega) h1.digits
  | squShort v =>
    have hv : (∀ d ∈ v, IsDigit d) ∧ v.length ≤ 3 := by
      rcases hd with h | h <;> exact ⟨h.digits, by have := h.1; omega⟩
    obtain ⟨h1, h3⟩ := hv
    have el : (encryptAll ck pc (seed 0) v).length = v.length := encryptFlags_length ..
    refine Yields.step (convertVec_ok (by omega) h1) ?_
    refine Yields.bind (ctSqu_valid st (encryptFlags_valid st (seed 0) 0 v (List.replicate v.length true) h1 (by simp))
      (by rw [el]; omega)) fun z hz => ?_
    have hl : z.length ≤ 63 := by
      have := hz.2
      rw [el] at this
      exact (this.trans (squLen_mono h3 (by norm_num))).trans (by decide)
    refine Yields.bind (decryptToVec_ok st hz.1) fun _ _ => ?_
    refine Yields.step (decryptCt_ok st hz.1 hl) ?_
    exact Yields.step (i64Op_fits pc.build (hz.1.isI64 hl)) (M.check_pass rfl)
  | scm v f k =>
    obtain ⟨h1, l1, k1, k2⟩ := hd
    have a1 : v.length = 9 := h1.1
    have hk : k.natAbs ≤ 2 ^ 30 := by omega
    have k1' : -2 ^ 31 < k := by omega
    have k2' : k < 2 ^ 31 := by omega
    refine Yields.step (convertVec_ok (by omega) h1.digits) ?_
    have hrun : Yields ((arithCt S pc).scalarMul k (encryptFlags ck pc (seed 0) 0 v f)) fun z =>
        Valid ck B z (k * value v) ∧ z.length ≤ 47 :=
      (scalarMul_safe st ha (k := k) k1' k2' hb (encryptFlags_valid st (seed 0) 0 v f h1.digits l1) (l := 31)
        (by omega)).mono fun z hz => ⟨hz.1, by have := hz.2; rw [encryptFlags_length] at this; omega⟩
    have hi : ∀ {T : Type} (A : Arith T) (x : T), Instr.run A [x] (.scalarMul k 0) = A.scalarMul k x := fun _ _ => rfl
    have hc := op_check st (ins := .scalarMul k 0) (xs := [encryptFlags ck pc (seed 0) 0 v f]) (vs := [value v]) (l := 47)
      (by rw [hi]; exact hrun) (by norm_num) ?_ ⟨by simp, by omega, by omega⟩ trivial
    · rw [hi, hi] at hc
      exact hc
    · intro x hx
      simp only [List.mem_singleton] at hx
      subst hx
      exact value_isI64 (by omega) h1.digits
  | asc =>
    have hlen : asc12.length = 2048 := by
      have := congrArg List.length asc12_keys
      simpa using this
    refine Yields.bind (M.check_pass (by rw [ha]; exact hlen)) fun _ _ => ?_
    refine forM_pass _ fun e he => ?_
    rw [ha] at he
    exact Yields.step (C26_values pc.build (k := e.1) (ch := e.2) he) (M.check_pass rfl)
  | koyTsu k =>
    have hk : k ≤ 2 ^ 30 := hd
    obtain ⟨ds, d1, d2, d3, d4⟩ := koyTsu_pass (pc := pc) (k := k) (by omega) hb
    exact Yields.step d1 (Yields.step (convertVec_ok d4 d2) (M.check_pass d3.symm))
  | nn net ins =>
    obtain ⟨⟨n1, n2⟩, ⟨i1, i2⟩, hL, hI⟩ := hd
    refine Yields.bind (nnInputs_ok st seed 0 ins hI) fun r hr => ?_
    have hne : net.layers ≠ [] := by
      intro h
      rw [h] at n1
      simp at n1
    have hp := drawnLayers_ok i2 hL
    refine Yields.bind ((levels_ct st ha).evalLayers net.layers r.2 [] _ hne (by omega) hp hr.2) fun zs hz => ?_
    refine Yields.bind (decryptAll_ok st hz) ?_
    rintro _ rfl
    refine Yields.bind ((levels_i64 pc.build).evalLayers net.layers r.1 [] _ hne (by omega) hp hr.1) fun ms hm => ?_
    refine M.check_pass ?_
    have : ∀ {as bs : List Int}, List.Forall₂ (fun x v => x = v ∧ v.natAbs < 2 ^ 63) as bs → bs = as := by
      intro as bs h
      induction h with
      | nil => rfl
      | cons h _ ih => rw [h.1, ih]
    exact this hm

/-- **C71**, the whole suite as it is run by the `Makefile` (`cargo test --release`): any number of iterations, in any order,
with any values and any randomness. -/
theorem C71_suite (st : Setting S ck pc B D) (hs : Shipped pc) : ∀ (cs : List ((Nat → Nat → Nat) × Case)),
    (∀ sc ∈ cs, sc.2.Drawn) → Yields (runCases ck pc cs) fun _ => True
  | [], _ => Yields.pure trivial
  | (seed, c) :: cs, h =>
    Yields.bind (C71_pass st hs.2 seed c (h (seed, c) (by simp)) (Or.inl hs.1)) fun _ _ =>
      C71_suite st hs cs fun sc hsc => h sc (by simp [hsc])

/-- **C71**, the condition on debug builds is exact: an iteration that draws any other value panics by overflow. -/
theorem C71_debug (hbd : pc.build = .debug) (seed : Nat → Nat → Nat) (c : Case) (hd : c.Drawn)
    (hn : ¬ c.NoOverflow) : Fails (c.run ck pc seed) (.panic .overflow) := by
  cases c with
  | scm v f k =>
    obtain ⟨h1, l1, k1, k2⟩ := hd
    have a1 : v.length = 9 := h1.1
    have hk : k.natAbs ≤ 2 ^ 30 := by omega
    unfold Case.NoOverflow DebugSafe at hn
    obtain ⟨n1, n2⟩ := not_or.1 hn
    have e : pc.withBuild .debug = pc := by rw [← hbd]
    have := C50_scalar_mul_windows S pc (k := k) (by omega) (by omega) (encryptFlags ck pc (seed 0) 0 v f)
    rw [if_neg n2, e] at this
    unfold Case.run
    refine (convertVec_ok (by omega) h1.digits).bind_fails (Fails.bind ?_)
    rw [arithCt_scalarMul]
    exact this
  | koyTsu k =>
    have hk : k ≤ 2 ^ 30 := hd
    unfold Case.run
    rw [hbd]
    refine Fails.bind ?_
    by_cases h0 : k = 0
    · subst h0
      exact absurd rfl hn
    obtain ⟨ds, d1, -⟩ := C28_koyama_tsuruoka h0 (show k < 2 ^ 32 by omega)
    rcases DebugLike.koyamaTsuruokaVec k with ⟨ds', e1, _⟩ | h | ⟨f, h1, h2⟩
    · obtain ⟨_, _, _, hq⟩ := e1 (St.init Sched.seq)
      refine absurd ?_ hn
      show ((koyamaTsuruokaVec .debug k) (St.init Sched.seq)).toOption.isSome = true
      rw [hq]
      rfl
    · exact h
    · obtain ⟨_, _, _, hq⟩ := d1 (St.init Sched.seq)
      rw [h2] at hq
      cases hq
  | _ => exact absurd trivial hn

/-- … so a debug build of the suite can fail: a value the recoding test may draw, and one the test of scalar multiplication
may draw with any operand. -/
theorem C71_debug_can_fail (hbd : pc.build = .debug) (seed : Nat → Nat → Nat) :
    ((Case.koyTsu 91).Drawn ∧ Fails ((Case.koyTsu 91).run ck pc seed) (.panic .overflow)) ∧
    ∀ v f, DrawnVec 9 v → f.length = v.length →
      (Case.scm v f 91).Drawn ∧ Fails ((Case.scm v f 91).run ck pc seed) (.panic .overflow) := by
  refine ⟨⟨by show 91 ≤ 2 ^ 30; norm_num, C71_debug hbd seed _ (by show 91 ≤ 2 ^ 30; norm_num) ?_⟩, fun v f hv hf => ?_⟩
  · show ¬ ((koyamaTsuruokaVec .debug 91) (St.init Sched.seq)).toOption.isSome = true
    rw [C28_debug_panics]
    simp [Except.toOption]
  · have hd : (Case.scm v f 91).Drawn := ⟨hv, hf, by norm_num, by norm_num⟩
    refine ⟨hd, C71_debug hbd seed _ hd ?_⟩
    unfold Case.NoOverflow DebugSafe
    rintro (h | h)
    · norm_num at h
    · revert h
      decide +kernel

/-- the hypotheses hold for, among others: an addition of 7 words, some of them trivial, to 4 words, a product by `-2^30`,
and a network with a hidden layer that applies a maximum -/
example : Yields (runCases Demo.ck Demo.cloud12 [
      (fun i j => 17 * i + j, .addSub [1, 0, -1, 1, 1, 0, 1] [true, false, true, true, false, true, true] [-1, 0, 1, 1] [true, true, true, false]),
      (fun i j => 5 * i + j, .scm [1, 0, -1, 1, 1, 0, 1, 0, -1] (List.replicate 9 true) (-2 ^ 30)),
      (fun i j => 3 * i + j, .nn ⟨[[⟨.MAX, [1, -2], 0⟩], [⟨.ACT, [3], -15⟩, ⟨.LIN, [-7], 2⟩]]⟩
        [([1, 0, 1, -1, 0], List.replicate 5 true), ([0, 0, 1, 0, -1], List.replicate 5 false)])]) fun _ => True := by
  refine C71_suite Demo.st12 Demo.shipped12 _ ?_
  intro sc hsc
  simp only [List.mem_cons, List.not_mem_nil, or_false] at hsc
  rcases hsc with rfl | rfl | rfl
  · exact ⟨⟨15, by decide, ⟨7, by decide, by decide, by decide⟩, ⟨4, by decide, by decide, by decide⟩⟩, rfl, rfl⟩
  · exact ⟨⟨by decide, by decide⟩, rfl, by norm_num, by norm_num⟩
  · exact ⟨by decide, by decide, ⟨by decide, by decide, by decide, by decide, trivial⟩,
      fun i hi => by
        simp only [List.mem_cons, List.not_mem_nil, or_false] at hi
        rcases hi with rfl | rfl <;> exact ⟨⟨by decide, by decide⟩, rfl⟩⟩

end Parm
