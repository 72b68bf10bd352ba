import Verif.Proof.Within
import Verif.Props.Chains
import Verif.Props.Naf

/-!
# The number of additions of scalar multiplication
-/

namespace Parm

theorem Chain.one_mem {vs : List Int} (h : Chain vs) : (1 : Int) ∈ vs := by
  induction h with
  | one => simp
  | step _ _ _ _ _ _ ih => exact List.mem_cons_of_mem _ ih

theorem digitWeight_cons (d : Int) (ds : List Int) :
    digitWeight (d :: ds) = digitWeight ds + if d = 0 then 0 else 1 := by
  unfold digitWeight
  rw [List.countP_cons]
  by_cases h : d = 0 <;> simp [h]

theorem digitWeight_append (a b : List Int) : digitWeight (a ++ b) = digitWeight a + digitWeight b := by
  unfold digitWeight
  exact List.countP_append

theorem value_of_weight_zero : ∀ {ds : List Int}, digitWeight ds = 0 → value ds = 0
  | [], _ => rfl
  | d :: ds, h => by
    rw [digitWeight_cons] at h
    have hd : d = 0 := by by_contra hd; rw [if_neg hd] at h; omega
    rw [value_cons, hd, value_of_weight_zero (by omega)]; rfl

/-- a signed-digit representation with `h` nonzero digits computes its value, up to sign and trailing zeros, by `h - 1`
additions -/
theorem byAdditions_digits : ∀ {ds : List Int}, (∀ d ∈ ds, IsDigit d) → 1 ≤ digitWeight ds →
    ∃ (j : Nat) (K : Int), (value ds = K * 2 ^ j ∨ value ds = -(K * 2 ^ j)) ∧ ByAdditions (digitWeight ds - 1) K ∧
      (ds.headD 0 ≠ 0 → j = 0)
  | [], _, h => by simp [digitWeight] at h
  | d :: ds, hd, h => by
    have hdd : IsDigit d := hd d (by simp)
    by_cases h0 : digitWeight ds = 0
    · refine ⟨0, 1, ?_, ?_, fun _ => rfl⟩
      · rw [value_cons, value_of_weight_zero h0]
        rw [digitWeight_cons, h0] at h
        have : d ≠ 0 := by intro hc; rw [if_pos hc] at h; omega
        unfold IsDigit at hdd
        omega
      · rw [digitWeight_cons, h0] at *
        have : 0 + (if d = 0 then 0 else 1) - 1 = 0 := by split_ifs <;> rfl
        rw [this]
        exact ⟨[1], Chain.one, rfl, by simp⟩
    · obtain ⟨j, K, hv, ⟨vs, c1, c2, c3⟩, -⟩ := byAdditions_digits (fun e he => hd e (by simp [he])) (by omega : 1 ≤ digitWeight ds)
      by_cases hz : d = 0
      · subst hz
        refine ⟨j + 1, K, ?_, ⟨vs, c1, ?_, c3⟩, fun hc => absurd rfl hc⟩
        · rw [value_cons, pow_succ]
          rcases hv with hv | hv <;> rw [hv]
          · left; ring
          · right; ring
        · rw [digitWeight_cons, if_pos rfl]; omega
      · refine ⟨0, value (d :: ds), Or.inl (by simp), ?_, fun _ => rfl⟩
        rw [digitWeight_cons, if_neg hz, value_cons]
        have hd1 : d = 1 ∨ d = -1 := by unfold IsDigit at hdd; omega
        rcases hv with hv | hv
        · refine ⟨_, Chain.step c1 c1.one_mem c3 hd1 (Or.inl (rfl : (1 : Int) = 1)) (j + 1), ?_, ?_⟩
          · rw [List.length_cons]; omega
          · rw [hv, pow_succ]
            exact List.mem_cons.2 (Or.inl (by ring))
        · refine ⟨_, Chain.step c1 c1.one_mem c3 hd1 (Or.inr (rfl : (-1 : Int) = -1)) (j + 1), ?_, ?_⟩
          · rw [List.length_cons]; omega
          · rw [hv, pow_succ]
            exact List.mem_cons.2 (Or.inl (by ring))

/-- number of elements of the shipped chain of `k` -/
def ascLenOf (k : Nat) : Nat := ((mapGet? asc12 k).getD []).length

theorem digitWeight_skip {v : List Int} (sh : Nat) : digitWeight (v.drop (skipZeros v sh)) = digitWeight (v.drop sh) := by
  unfold skipZeros
  rw [← List.drop_drop]
  generalize v.drop sh = t
  induction t with
  | nil => rfl
  | cons a t ih =>
    by_cases h : a = 0
    · rw [List.takeWhile_cons_of_pos (by simpa using h), List.length_cons, List.drop_succ_cons, ih, digitWeight_cons,
        if_pos h, Nat.add_zero]
    · rw [List.takeWhile_cons_of_neg (by simpa using h)]
      rfl

theorem ascLenOf_window {w : List Int} (hd : ∀ d ∈ w, IsDigit d) (hh : w.headD 0 ≠ 0) (hw : value w % 2 = 1)
    (hl : (value w).natAbs < 2 ^ 12) : ascLenOf (absU32 (value w)) + 1 ≤ digitWeight w := by
  have h1 : 1 ≤ digitWeight w := by
    cases w with
    | nil => simp at hh
    | cons a w => rw [digitWeight_cons, if_neg (by simpa using hh)]; omega
  obtain ⟨j, K, hv, hb, hj⟩ := byAdditions_digits hd h1
  obtain rfl := hj hh
  obtain ⟨ch, c1, c2⟩ := mapGet?_some (m := asc12) (k := absU32 (value w)) (by
    rw [asc12_keys, List.mem_map]
    exact ⟨absU32 (value w) / 2, by rw [List.mem_range]; unfold absU32; omega, by unfold absU32; omega⟩)
  have := C59_optimal c2 (K := K) (by unfold absU32; rw [pow_zero] at hv; omega) hb
  unfold ascLenOf
  rw [c1, Option.getD_some]
  omega

/-- the windows together need at most as many additions as adding up the digits -/
theorem windShiftsLoop_adds (b : Build) {kVec : List Int} (hd : ∀ d ∈ kVec, IsDigit d) (hlast : kVec.getLast? = some 1) :
    ∀ (fuel sh : Nat), sh < kVec.length → kVec.length < sh + fuel →
    Ensures (windShiftsLoop b kVec ascBitlen fuel sh) fun ws =>
      (ws.map fun w => ascLenOf (absU32 w.1)).sum + ws.length ≤ digitWeight (kVec.drop sh)
  | 0, sh, h, hf => by omega
  | fuel + 1, sh, h, hf => by
    obtain ⟨z1, z2, z3, z4⟩ := skipZeros_spec h hlast
    have hskip := digitWeight_skip (v := kVec) sh
    obtain ⟨s, hs⟩ : ∃ s, skipZeros kVec sh = s := ⟨_, rfl⟩
    rw [hs] at z1 z2 z3 z4 hskip
    obtain ⟨hi, hhi⟩ : ∃ hi, hi = (if s + ascBitlen - 1 ≥ kVec.length then kVec.length - 1
      else s + ascBitlen - 1) := ⟨_, rfl⟩
    have hb12 : ascBitlen = 12 := rfl
    have hhi1 : s ≤ hi ∧ hi < kVec.length ∧ hi + 1 - s ≤ ascBitlen ∧
        hi + 1 - s = min ascBitlen (kVec.length - s) := by
      rw [hhi, hb12]; split_ifs <;> omega
    unfold windShiftsLoop
    simp only [hs, ← hhi]
    refine Ensures.ite (fun _ => Ensures.panic _) fun _ => ?_
    have hw : ∀ d ∈ (kVec.drop s).take (hi + 1 - s), IsDigit d :=
      fun d h => hd d (List.mem_of_mem_drop (List.mem_of_mem_take h))
    have hwl : ((kVec.drop s).take (hi + 1 - s)).length = hi + 1 - s := by
      rw [List.length_take, List.length_drop]; omega
    have hsplit : digitWeight (kVec.drop s) = digitWeight ((kVec.drop s).take (hi + 1 - s)) +
        digitWeight (kVec.drop (s + (hi + 1 - s))) := by
      conv_lhs => rw [← List.take_append_drop (hi + 1 - s) (kVec.drop s), digitWeight_append, List.drop_drop]
    have hhead : ((kVec.drop s).take (hi + 1 - s)).headD 0 ≠ 0 := by
      obtain ⟨n, hn⟩ : ∃ n, hi + 1 - s = n + 1 := ⟨hi - s, by omega⟩
      rw [hn, List.drop_eq_getElem_cons z2, List.take_succ_cons]
      simpa [List.getD_eq_getElem?_getD, z2] using z3
    have hodd : value ((kVec.drop s).take (hi + 1 - s)) % 2 = 1 := by
      obtain ⟨n, hn⟩ : ∃ n, hi + 1 - s = n + 1 := ⟨hi - s, by omega⟩
      rw [hn, List.drop_eq_getElem_cons z2, List.take_succ_cons, value_cons]
      have hz : kVec[s] ≠ 0 := by
        simpa [List.getD_eq_getElem?_getD, z2] using z3
      have := hd kVec[s] (List.getElem_mem z2)
      unfold IsDigit at this
      omega
    generalize (kVec.drop s).take (hi + 1 - s) = w at hw hwl hsplit hhead hodd
    have habs := value_abs_lt hw
    rw [hwl] at habs
    have hp12 : 2 ^ (hi + 1 - s) ≤ 2 ^ 12 := Nat.pow_le_pow_right (by norm_num) (by omega)
    have hwrap : wrapI32 (value w) = value w := by
      unfold wrapI32
      rw [Int.bmod_eq_of_le] <;> omega
    have hone := ascLenOf_window hw hhead hodd (by omega)
    refine Ensures.bind (P := fun a => a = value w) ?_ ?_
    · intro t a t' e
      obtain ⟨_, _, _, hr⟩ := (convertFromVec_ok b (by rw [hwl]; omega) hw).expect t
      rw [hr] at e
      cases e
      rfl
    · rintro _ rfl
      rw [hwrap]
      refine Ensures.ite (fun hend => Ensures.pure ?_) fun hend => ?_
      · simp only [List.map_cons, List.map_nil, List.sum_cons, List.sum_nil, List.length_singleton]
        omega
      · refine (windShiftsLoop_adds b hd hlast fuel (s + ascBitlen) (by omega) (by omega)).bind fun rest hrest =>
          Ensures.pure ?_
        have e : hi + 1 - s = ascBitlen := by omega
        rw [e] at hsplit
        simp only [List.map_cons, List.sum_cons, List.length_cons]
        omega

theorem chainMax_ok : (asc12.all fun e => chainMax (Nat.log2 e.1 + 5) e.2 [0] && e.2.length ≤ 4) = true := by
  decide +kernel

theorem asc12_get {k : Nat} (h1 : k % 2 = 1) (h2 : k < 2 ^ 12) : ∃ ch, mapGet? asc12 k = some ch ∧
    ch.length = ascLenOf k ∧ chainMax (Nat.log2 k + 5) ch [0] = true ∧ ascLenOf k ≤ 4 := by
  obtain ⟨ch, c1, c2⟩ := mapGet?_some (m := asc12) (k := k) (by
    rw [asc12_keys, List.mem_map]
    exact ⟨k / 2, by rw [List.mem_range]; omega, by omega⟩)
  have h := List.all_eq_true.1 chainMax_ok _ c2
  rw [Bool.and_eq_true, decide_eq_true_eq] at h
  have e : ch.length = ascLenOf k := by unfold ascLenOf; rw [c1, Option.getD_some]
  exact ⟨ch, c1, e, h.1, by rw [← e]; exact h.2⟩

theorem chainMax_mono {b b' : Nat} (hb : b ≤ b') : ∀ (ch : Asc) (ls : List Nat), chainMax b ch ls = true →
    chainMax b' ch ls = true
  | [], _, _ => rfl
  | e :: es, ls, h => by
    unfold chainMax at h ⊢
    rw [Bool.and_eq_true, decide_eq_true_eq] at h ⊢
    exact ⟨by omega, chainMax_mono hb es _ h.2⟩

theorem mapInsert_sum {V : Type} (f : Nat → Nat) (k : Nat) (v : V) : ∀ (m : List (Nat × V)),
    ((mapInsert k v m).map fun e => f e.1).sum = f k + (m.map fun e => f e.1).sum
  | [] => by simp [mapInsert]
  | (a, b) :: m => by
    unfold mapInsert
    split_ifs
    · simp
    · simp only [List.map_cons, List.sum_cons, mapInsert_sum f k v m]; omega

theorem initKeys_sum {V : Type} (f : Nat → Nat) (empty : V) : ∀ (ws : List (Int × Nat)) (m : List (Nat × V)),
    ((initKeys empty ws m).map fun e => f e.1).sum ≤ (m.map fun e => f e.1).sum + (ws.map fun w => f (absU32 w.1)).sum
  | [], m => by simp [initKeys]
  | (wi, sh) :: ws, m => by
    unfold initKeys
    refine (initKeys_sum f empty ws _).trans ?_
    rw [List.map_cons, List.sum_cons]
    split_ifs
    · omega
    · rw [mapInsert_sum]; simp only; omega

theorem range_map_idx {V : Type} (g : V → Nat) (l : List V) (d : V) :
    ((List.range l.length).map fun i => g (l.getD i d)) = l.map g := by
  apply List.ext_getElem
  · simp
  · intro i h1 h2
    have : i < l.length := by simpa using h1
    simp [List.getD_eq_getElem?_getD, this]

theorem sum_map_mul (g : Nat → Nat) (c : Nat) : ∀ (l : List Nat), (l.map fun i => g i * c).sum = (l.map g).sum * c
  | [] => by simp
  | a :: l => by simp only [List.map_cons, List.sum_cons, sum_map_mul g c l]; ring

variable {S : Scheme} {pc : Cloud}

/-- scalar multiplication, for all arguments for which it returns: `A` bounds the number of additions -/
theorem Within.scalarMulImpl (hasc : pc.asc = asc12) {k : Int} (hk1 : -2 ^ 31 ≤ k) (hk2 : k < 2 ^ 31)
    {ds : List Int} (hds : Returns (koyamaTsuruokaVec .release k.natAbs) ds 0) {l : Nat} (hl : k.natAbs < 2 ^ l)
    (x : Ctxt S.C) :
    Within (scalarMulImpl S pc k x) (fun z => z.length ≤ x.length + l + 7)
      (min 14 (digitWeight ds - 1) * (2 * (x.length + l + 6))) := by
  unfold Parm.scalarMulImpl
  obtain ⟨xp, hxp⟩ : ∃ xp, xp = (if k ≥ 0 then x else x.map (Word.opp S)) := ⟨_, rfl⟩
  have hxpl : xp.length = x.length := by
    rw [hxp]; split_ifs <;> simp
  simp only [← hxp]
  clear hxp
  obtain ⟨ka, hka⟩ : ∃ ka : Nat, ka = k.natAbs := ⟨_, rfl⟩
  rw [← hka] at hds hl ⊢
  have hka31 : ka ≤ 2 ^ 31 := by omega
  refine Within.bind0 (P := fun a => a = wrapI32 (ka : Int)) ?_ ?_
  · unfold i32Op
    split_ifs with h
    · refine Within.pure ?_
      unfold inI32 at h
      simp only [Bool.and_eq_true, decide_eq_true_eq] at h
      unfold wrapI32
      rw [Int.bmod_eq_of_le] <;> omega
    · split
      · exact Within.panic _
      · exact Within.pure rfl
  intro a ha
  have hwrap : (wrapU32 (wrapI32 (ka : Int))).toNat = ka := by
    have : wrapU32 (wrapI32 (ka : Int)) = ka := by
      unfold wrapU32 wrapI32
      rw [show ((2 : Nat) ^ 32 : Nat) = 4294967296 by norm_num]
      have := Int.bmod_emod (x := (ka : Int)) (m := 4294967296)
      norm_num at this ⊢
      rw [this]
      omega
    rw [this]; rfl
  rw [ha]
  simp only [hwrap]
  refine Within.ite (fun _ => Within.pure (by simp [emptyCt])) fun h0 => ?_
  refine Within.ite (fun _ => Within.pure (by omega)) fun h1 => ?_
  -- the windows
  obtain ⟨ds', d1, d2, d3, d4, d5, _, _⟩ := koyamaTsuruoka_spec h0 (show ka < 2 ^ 32 by omega)
  obtain rfl := (d1.unique hds).1
  have hpos : 0 < ds'.length := by
    cases ds' with
    | nil => simp at d4
    | cons => simp
  obtain ⟨ws, w1, w2, w3, w4, w5⟩ := windShifts_spec h0 (show ka < 2 ^ 32 by omega)
    (bitlen := ascBitlen) (by decide) (by decide)
  have hadds : (ws.map fun w => ascLenOf (absU32 w.1)).sum + ws.length ≤ digitWeight ds' := by
    have hE : Ensures (windShifts .release ka ascBitlen) fun ws =>
        (ws.map fun w => ascLenOf (absU32 w.1)).sum + ws.length ≤ digitWeight ds' := by
      unfold windShifts
      refine Ensures.bind (P := fun a => ds' = a) ?_ ?_
      · intro t a t' e
        obtain ⟨_, _, _, hr⟩ := d1 t
        rw [hr] at e
        cases e
        rfl
      · rintro _ rfl
        have := windShiftsLoop_adds .release d2 d4 (ds'.length + 1) 0 hpos (by omega)
        rwa [List.drop_zero] at this
    obtain ⟨_, _, _, hr⟩ := w1 (St.init Sched.seq)
    exact hE _ _ _ hr
  refine Within.bind0 (P := fun a => ws = a) ?_ ?_
  · rcases hb : pc.build with _ | _
    · rcases windShifts_debug h0 (show ka < 2 ^ 32 by omega) (bitlen := ascBitlen) (by decide) (by decide) with
        ⟨ws', e1, e2⟩ | hf
      · obtain rfl := (e2.unique w1).1
        exact Within.of_returns e1 rfl
      · intro t a t' e
        rw [hf t] at e
        cases e
    · exact Within.of_returns w1 rfl
  rintro _ rfl
  obtain ⟨L, hL⟩ : ∃ L, bitLen32 (BitVec.ofNat 32 ka) = L := ⟨_, rfl⟩
  obtain ⟨b1, b2, b3, b4⟩ := bitLen32_spec h0 (show ka < 2 ^ 32 by omega)
  rw [hL] at w3 b1 b2 b3 b4
  have hLl : L ≤ l := by
    by_contra hc
    have : 2 ^ l ≤ 2 ^ (L - 1) := Nat.pow_le_pow_right (by norm_num) (by omega)
    omega
  have hlen3 : ws.length ≤ 3 := by
    by_contra hc
    have g : ∀ i (h : i < ws.length) (h' : i + 1 < ws.length), ws[i].2 + 12 ≤ ws[i+1].2 :=
      fun i h h' => (List.pairwise_iff_getElem.1 w4) i (i + 1) h h' (by omega)
    have g0 : ws[0].2 + 12 ≤ ws[1].2 := g 0 (by omega) (by omega)
    have g1 : ws[1].2 + 12 ≤ ws[2].2 := g 1 (by omega) (by omega)
    have g2 : ws[2].2 + 12 ≤ ws[3].2 := g 2 (by omega) (by omega)
    have := (w3 _ (List.getElem_mem (show 3 < ws.length by omega))).2.2.1
    omega
  have hw0 : 0 < ws.length := List.length_pos_iff.2 w5
  have hwin : ∀ w ∈ ws, absU32 w.1 % 2 = 1 ∧ absU32 w.1 < 2 ^ 12 ∧ Nat.log2 (absU32 w.1) + w.2 ≤ L := by
    intro w hw
    have := w3 w hw
    have hlog := log2_lt_of (a := absU32 w.1) (b := L + 1 - w.2) (by unfold absU32; omega) this.2.2.2
    refine ⟨by unfold absU32; omega, this.2.1, by omega⟩
  have hsum4 : (ws.map fun w => ascLenOf (absU32 w.1)).sum ≤ ws.length * 4 := by
    have : ∀ us : List (Int × Nat), (∀ u ∈ us, u ∈ ws) → (us.map fun w => ascLenOf (absU32 w.1)).sum ≤ us.length * 4 := by
      intro us
      induction us with
      | nil => simp
      | cons u us ih =>
        intro hu
        have h1 := ih fun v hv => hu v (by simp [hv])
        obtain ⟨_, _, _, _, h4⟩ := asc12_get (hwin u (hu u (by simp))).1 (hwin u (hu u (by simp))).2.1
        simp only [List.map_cons, List.sum_cons, List.length_cons]
        omega
    exact this ws fun _ h => h
  obtain ⟨N, hN⟩ : ∃ N, N = (ws.map fun w => ascLenOf (absU32 w.1)).sum := ⟨_, rfl⟩
  rw [← hN] at hadds hsum4
  have htot : N * (2 * (x.length + l + 6)) + (ws.length - 1) * (2 * (x.length + l + 6)) ≤
      min 14 (digitWeight ds' - 1) * (2 * (x.length + l + 6)) := by
    rw [← Nat.add_mul]
    exact Nat.mul_le_mul_right _ (by omega)
  refine Within.mono (Q := _) (Within.bind (P := fun map => map.map (·.1) = (initKeys (emptyCt S.C) ws []).map (·.1) ∧
    ∀ e ∈ map, e.2.length ≤ x.length + (Nat.log2 e.1 + 5)) (n := N * (2 * (x.length + l + 6)))
    (k := (ws.length - 1) * (2 * (x.length + l + 6))) ?_ ?_) (fun _ h => h) htot
  · -- the products with the windows
    refine (Within.parFor (P := fun i e => e.1 = ((initKeys (emptyCt S.C) ws []).map (·.1)).getD i 0 ∧
      e.2.length ≤ x.length + (Nat.log2 e.1 + 5))
      (c := fun i => ascLenOf ((initKeys (emptyCt S.C) ws []).getD i (0, emptyCt S.C)).1 * (2 * (x.length + l + 6)))
      ?_).mono ?_ ?_
    · intro i hi
      rw [List.getD_eq_getElem _ _ hi]
      have hkey : ((initKeys (emptyCt S.C) ws [])[i]).1 ∈ (initKeys (emptyCt S.C) ws []).map (·.1) :=
        List.mem_map.2 ⟨_, List.getElem_mem hi, rfl⟩
      rw [mem_keys_initKeys] at hkey
      obtain ⟨w, hw, ew⟩ : ∃ w ∈ ws, absU32 w.1 = ((initKeys (emptyCt S.C) ws [])[i]).1 := by
        rcases hkey with h | h
        · simp at h
        · exact h
      obtain ⟨q1, q2, q3⟩ := hwin w hw
      obtain ⟨ch, c1, c2, c3, c4⟩ := asc12_get q1 q2
      rw [ew] at c1 c2 c3 c4 q3
      refine Within.bind0 (P := fun a => ch = a) ?_ ?_
      · unfold mapIdx
        rw [hasc, c1]
        exact Within.pure rfl
      rintro _ rfl
      refine Within.mono (Q := _) (Within.bind (k := 0) (Within.expect (Within.ascEval (A := ascArith S pc) (fun _ => rfl)
        (fun _ _ => rfl) (fun _ _ => rfl) (by omega) c3 xp)) fun z hz => Within.pure ⟨?_, ?_⟩) (fun _ h => h) ?_
      · rw [c2, Nat.add_zero]
        exact Nat.mul_le_mul_left _ (by omega)
      · rw [List.getD_eq_getElem _ _ (by simpa using hi)]
        simp
      · rw [hxpl] at hz; exact hz
    · rintro map ⟨m1, m2⟩
      refine ⟨?_, ?_⟩
      · apply List.ext_getElem
        · simp [m1]
        · intro i hi hi'
          have := (m2 i (by simpa using hi)).1
          rw [List.getD_eq_getElem _ _ hi'] at this
          simpa using this
      · intro e he
        obtain ⟨i, hi, rfl⟩ := List.getElem_of_mem he
        exact (m2 i hi).2
    · rw [sum_map_mul, range_map_idx (g := fun e : Nat × Ctxt S.C => ascLenOf e.1)]
      refine Nat.mul_le_mul_right _ ?_
      have := initKeys_sum ascLenOf (emptyCt S.C) ws []
      simpa [hN] using this
  · rintro map ⟨m1, m2⟩
    refine Within.bind0 (P := fun rows : List (Ctxt S.C) => rows.length = ws.length ∧ ∀ r ∈ rows, r.length ≤ x.length + l + 5)
      ?_ ?_
    · refine (Within.seqFor (P := fun _ row => row.length ≤ x.length + l + 5) (c := fun _ => 0) ?_).mono ?_ ?_
      · intro i hi
        have hiw : i < ws.length := by simpa using hi
        refine Within.idx.bind0 fun w ⟨_, ew⟩ => ?_
        have hmem : w ∈ ws := by rw [← ew]; exact List.getElem_mem _
        obtain ⟨u, u1, u2⟩ := mapGet?_some (m := map) (k := absU32 w.1) (by
          rw [m1, mem_keys_initKeys]
          exact Or.inr ⟨_, hmem, rfl⟩)
        have u4 := m2 _ u2
        simp only at u4
        have hlog := (hwin w hmem).2.2
        refine Within.bind0 (P := fun a => u = a) (Within.of_returns (Returns.mapIdx u1) rfl) ?_
        rintro _ rfl
        refine Within.ite (fun _ => Within.pure ?_) fun _ => Within.pure ?_
        · have : (ctOpp S u).length = u.length := by simp [ctOpp, oppositeImpl]
          rw [length_ctShift]; omega
        · rw [length_ctShift]; omega
      · rintro rows ⟨r1, r2⟩
        refine ⟨by simpa using r1, fun r hr => ?_⟩
        obtain ⟨i, hi, rfl⟩ := List.getElem_of_mem hr
        exact r2 i hi
      · rw [sum_range_const]; omega
    · rintro rows ⟨r1, r2⟩
      refine Within.ite (fun _ => ?_) fun _ => ?_
      · refine Within.idx.mono ?_ (by omega)
        rintro z ⟨hz, rfl⟩
        have := r2 _ (List.getElem_mem hz)
        omega
      · refine (Within.reduceMulsquary rows r2).mono ?_ ?_
        · intro z hz; omega
        · rw [r1]
          exact Nat.mul_le_mul_left _ (by omega)

end Parm
