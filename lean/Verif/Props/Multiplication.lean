import Verif.Proof.Multiplication
import Verif.Proof.AnyOps
import Verif.Proof.Instance

/-!
# Properties C17, C18, C20: multiplication and squaring
-/

namespace Parm
section
variable {S : Scheme} {ck : ClientKey S} {pc : Cloud} {B D : Nat}

/-- **C17.** Multiplication, whichever of the algorithms (one word, schoolbook, Karatsuba at any
depth) is selected; operands of any two lengths up to 32 words. -/
theorem C17_mul (st : Setting S ck pc B D) {x y : Ctxt S.C} {vx vy : Int}
    (hx : Valid ck B x vx) (hy : Valid ck B y vy) (hlx : x.length ≤ 32) (hly : y.length ≤ 32) :
    Yields (ctMul S pc x y) (fun z => Valid ck B z (vx * vy)) :=
  (ctMul_valid st hx hy (by omega)).mono fun _ h => h.1

/-- **C18.** Squaring. -/
theorem C18_squ (st : Setting S ck pc B D) {x : Ctxt S.C} {v : Int} (hx : Valid ck B x v)
    (hl : x.length ≤ 32) : Yields (ctSqu S pc x) (fun z => Valid ck B z (v ^ 2)) :=
  (ctSqu_valid st hx hl).mono fun _ h => h.1.congr (by ring)

/-- **C20.** Whatever the operands contain, a product with an operand of more than 32 words
panics … -/
theorem C20_mul_too_long (x y : Ctxt S.C) (h : 32 < x.length ∨ 32 < y.length) :
    Fails (ctMul S pc x y) (.panic (.expect .mulTooLong)) := by
  unfold ctMul
  apply Fails.call_err
  have hl : (mulAlign S pc x y).1.length = max x.length y.length := by
    unfold mulAlign; simp; omega
  unfold mulFuel mulImpl
  simp only
  rw [if_neg (by omega), if_neg (by omega), if_neg (by omega), if_neg (by omega)]
  exact Fails.err _

/-- … so does a square … -/
theorem C20_squ_too_long (x : Ctxt S.C) (h : 32 < x.length) :
    Fails (ctSqu S pc x) (.panic (.expect .squTooLong)) := by
  unfold ctSqu
  apply Fails.call_err
  unfold mulFuel squImpl
  rw [if_neg (by omega), if_neg (by omega), if_neg (by omega), if_neg (by omega)]
  exact Fails.err _

/-- … and, whatever the words of the operands hold, these are the only failures. -/
theorem C20_mul_fails_iff (hm : pc.msgMod = 32) (hc : pc.carryMod = 1) {x y : Ctxt S.C}
    (hx : ∀ w ∈ x, w.msgMod = 32) (hy : ∀ w ∈ y, w.msgMod = 32) :
    (∃ f, Fails (ctMul S pc x y) f) ↔ 32 < max x.length y.length := by
  constructor
  · rintro ⟨f, hf⟩
    by_contra h
    obtain ⟨z, n, hz, _⟩ := ctMul_any ⟨hm, hc⟩ hx hy (by omega)
    exact hz.not_fails hf
  · intro h
    exact ⟨_, C20_mul_too_long x y (by omega)⟩

theorem C20_squ_fails_iff (hm : pc.msgMod = 32) (hc : pc.carryMod = 1) {x : Ctxt S.C}
    (hx : ∀ w ∈ x, w.msgMod = 32) : (∃ f, Fails (ctSqu S pc x) f) ↔ 32 < x.length := by
  constructor
  · rintro ⟨f, hf⟩
    by_contra h
    obtain ⟨z, n, hz, _⟩ := ctSqu_any ⟨hm, hc⟩ hx (by omega)
    exact hz.not_fails hf
  · intro h
    exact ⟨_, C20_squ_too_long x h⟩

end

example : Yields (ctMul Demo.scheme Demo.cloud (Demo.encVec [1, 0, 1]) (Demo.encVec [0, 1, 0, -1]))
    (fun z => Valid Demo.ck (2 ^ 53) z (-30)) :=
  (C17_mul Demo.st Demo.valid5 Demo.validm6 (by simp [Demo.encVec]) (by simp [Demo.encVec])).mono
    fun _ h => h.congr (by norm_num)
/-- Karatsuba: 20 words -/
example : Yields (ctMul Demo.scheme Demo.cloud (ctShift Demo.cloud (Demo.encVec [1, 0, 1]) 17)
      (Demo.encVec [0, 1, 0, -1])) (fun z => Valid Demo.ck (2 ^ 53) z (-30 * 2 ^ 17)) :=
  (C17_mul Demo.st (ctShift_valid Demo.st Demo.valid5 17) Demo.validm6
    (by rw [length_ctShift]; simp [Demo.encVec]) (by simp [Demo.encVec])).mono
    fun _ h => h.congr (by norm_num)
example : Yields (ctSqu Demo.scheme Demo.cloud (Demo.encVec [0, 1, 0, -1]))
    (fun z => Valid Demo.ck (2 ^ 53) z 36) :=
  (C18_squ Demo.st Demo.validm6 (by simp [Demo.encVec])).mono fun _ h => h.congr (by norm_num)
example : Fails (ctMul Demo.scheme Demo.cloud (ctShift Demo.cloud (Demo.encVec [1, 0, 1]) 30)
      (Demo.encVec [1])) (.panic (.expect .mulTooLong)) :=
  C20_mul_too_long _ _ (Or.inl (by rw [length_ctShift]; simp [Demo.encVec]))
/-- 40 words of noise: the square fails; 32 of them: it does not -/
example : (∃ f, Fails (ctSqu Demo.scheme Demo.cloud (List.replicate 40 ⟨.ct (7#64, 12345678901234567#64), 32⟩)) f) ∧
    ¬ ∃ f, Fails (ctSqu Demo.scheme Demo.cloud (List.replicate 32 ⟨.ct (7#64, 12345678901234567#64), 32⟩)) f := by
  rw [C20_squ_fails_iff rfl rfl (by simp), C20_squ_fails_iff rfl rfl (by simp)]
  simp
example : ¬ ∃ f, Fails (ctMul Demo.scheme Demo.cloud (List.replicate 32 ⟨.ct (7#64, 12345678901234567#64), 32⟩)
    [⟨.triv 5#64, 32⟩]) f := by
  rw [C20_mul_fails_iff rfl rfl (by simp) (by simp)]
  simp

end Parm
