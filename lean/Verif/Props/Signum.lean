import Verif.Proof.Signum
import Verif.Proof.Instance

/-!
# Properties C14–C16, C19: signum, maximum, ReLU, rounding
-/

namespace Parm
section
variable {S : Scheme} {ck : ClientKey S} {pc : Cloud} {B D : Nat}

/-- **C14.** Signum: one word (none for the empty ciphertext) holding the sign of the value.
`Setting` puts no condition on `quad_weight`, so both code paths are covered. -/
theorem C14_sgn (st : Setting S ck pc B D) {x : Ctxt S.C} {v : Int} (hx : Valid ck B x v) :
    Yields (ctSgn S pc x) (fun z => Valid ck B z (if 0 < v then 1 else if v < 0 then -1 else 0) ∧
      z.length = if x = [] then 0 else 1) := by
  refine (ctSgn_valid st hx).mono ?_
  rintro z ⟨h1, h2⟩
  refine ⟨h1.congr ?_, ?_⟩
  · split_ifs with h h'
    · exact Int.sign_eq_one_of_pos h
    · exact Int.sign_eq_neg_one_of_neg h'
    · rw [show v = 0 by omega]; rfl
  · rw [h2]
    cases x with
    | nil => rfl
    | cons a l => simp

/-- **C15.** Maximum. -/
theorem C15_max (st : Setting S ck pc B D) {x y : Ctxt S.C} {vx vy : Int}
    (hx : Valid ck B x vx) (hy : Valid ck B y vy) :
    Yields (ctMax S pc x y) (fun z => Valid ck B z (if vx < vy then vy else vx) ∧
      z.length = max x.length y.length) := by
  refine (ctMax_valid st hx hy).mono ?_
  rintro z ⟨h1, h2⟩
  exact ⟨h1.congr (by split_ifs <;> omega), h2⟩

/-- **C16.** ReLU. -/
theorem C16_relu (st : Setting S ck pc B D) {x : Ctxt S.C} {v : Int} (hx : Valid ck B x v) :
    Yields (ctRelu S pc x) (fun z => Valid ck B z (if v < 0 then 0 else v) ∧
      z.length = x.length) := by
  refine (ctRelu_valid st hx).mono ?_
  rintro z ⟨h1, h2⟩
  exact ⟨h1.congr (by split_ifs <;> omega), h2⟩

/-- **C19.** Rounding: the result is *the* multiple `r` of `2^p` with
`v - 2^(p-1) < r ≤ v + 2^(p-1)` (nearest, ties upwards), for every
representation of `v`; position 0 leaves the value. -/
theorem C19_round_at (st : Setting S ck pc B D) {x : Ctxt S.C} {v : Int} (hx : Valid ck B x v)
    (p : Nat) :
    Yields (ctRoundAt S pc x p) (fun z => ∃ r : Int, Valid ck B z r ∧
      (p = 0 → r = v) ∧
      (1 ≤ p → 2 ^ p ∣ r ∧ v - 2 ^ (p - 1) < r ∧ r ≤ v + 2 ^ (p - 1))) := by
  refine (ctRoundAt_valid st hx p).mono ?_
  rintro z ⟨h1, _⟩
  refine ⟨_, h1, fun h => by rw [if_pos h], fun h => ?_⟩
  rw [if_neg (by omega)]
  have e2 : (2 : Int) ^ p = 2 * 2 ^ (p - 1) := by
    rw [← pow_succ']; congr 1; omega
  have hp : (0 : Int) < 2 ^ p := by positivity
  have m1 := Int.emod_nonneg (v + 2 ^ (p - 1)) hp.ne'
  have m2 := Int.emod_lt_of_pos (v + 2 ^ (p - 1)) hp
  have m3 := Int.mul_ediv_add_emod (v + 2 ^ (p - 1)) (2 ^ p)
  rw [mul_comm] at m3
  exact ⟨Dvd.intro_left _ rfl, by omega, by omega⟩

/-- **C19**, closed form. -/
theorem C19_round_at_value (st : Setting S ck pc B D) {x : Ctxt S.C} {v : Int} (hx : Valid ck B x v)
    (p : Nat) (hp : 1 ≤ p) :
    Yields (ctRoundAt S pc x p) (fun z => Valid ck B z ((v + 2 ^ (p - 1)) / 2 ^ p * 2 ^ p)) := by
  refine (ctRoundAt_valid st hx p).mono ?_
  rintro z ⟨h1, _⟩
  rwa [if_neg (by omega)] at h1

end

/-- sign of -6 -/
example : Yields (ctSgn Demo.scheme Demo.cloud (Demo.encVec [0, 1, 0, -1]))
    (fun z => Valid Demo.ck (2 ^ 53) z (-1) ∧ z.length = 1) :=
  (C14_sgn Demo.st Demo.validm6).mono fun _ h => ⟨h.1.congr (by norm_num), h.2⟩
/-- max of 5 and -6, of different lengths -/
example : Yields (ctMax Demo.scheme Demo.cloud (Demo.encVec [1, 0, 1]) (Demo.encVec [0, 1, 0, -1]))
    (fun z => Valid Demo.ck (2 ^ 53) z 5 ∧ z.length = 4) :=
  (C15_max Demo.st Demo.valid5 Demo.validm6).mono fun _ h => ⟨h.1.congr (by norm_num), h.2⟩
example : Yields (ctRelu Demo.scheme Demo.cloud (Demo.encVec [0, 1, 0, -1]))
    (fun z => Valid Demo.ck (2 ^ 53) z 0) :=
  (C16_relu Demo.st Demo.validm6).mono fun _ h => h.1.congr (by norm_num)
/-- -6 rounded to a multiple of 4: the tie goes up to -4 -/
example : Yields (ctRoundAt Demo.scheme Demo.cloud (Demo.encVec [0, 1, 0, -1]) 2)
    (fun z => Valid Demo.ck (2 ^ 53) z (-4)) :=
  (C19_round_at_value Demo.st Demo.validm6 2 (by norm_num)).mono fun _ h => h.congr (by norm_num)
/-- 5 rounded to a multiple of 16, beyond its length -/
example : Yields (ctRoundAt Demo.scheme Demo.cloud (Demo.encVec [1, 0, 1]) 4)
    (fun z => Valid Demo.ck (2 ^ 53) z 0) :=
  (C19_round_at_value Demo.st Demo.valid5 4 (by norm_num)).mono fun _ h => h.congr (by norm_num)

end Parm
