import Verif.Props.Lookup
import Verif.Props.Multiplication

/-!
# Property C79: the look-up functions compute what their comments say

For every look-up function of `/repo/src/cloudovo/pbs.rs` with a table of its own, the function named in the comment and the
messages for which it is computed.
-/

namespace Parm

/-- `X ⋛ ±t`, the comments `/repo/src/cloudovo/pbs.rs:175,190,205` -/
def threshold (t m : Int) : Int := if m ≥ t then 1 else if m ≤ -t then -1 else 0

/-- `X ≡ ±2 (× val)`, `/repo/src/cloudovo/pbs.rs:220` -/
def equalsTwo (val : Nat) (m : Int) : Int := if m = 2 then val else if m = -2 then -val else 0

/-- `X ⋛ ±1 (× val)`, `/repo/src/cloudovo/pbs.rs:236` -/
def signTimes (val : Nat) (m : Int) : Int := threshold 1 m * val

/-- `X ≥ 0 /sgn+/ (× val)`, `/repo/src/cloudovo/pbs.rs:252` -/
def signPlusTimes (val : Nat) (m : Int) : Int := if m ≥ 0 then val else -val

/-- `|X| ≥ t`, `/repo/src/cloudovo/pbs.rs:268,283` -/
def absAtLeast (t : Nat) (m : Int) : Int := if m.natAbs ≥ t then 1 else 0

/-- `ReLU+`, `/repo/src/cloudovo/pbs.rs:361-364` -/
def reluPlus (m : Int) : Int := if m ≤ 0 then 0 else m - 2

section
variable {S : Scheme} {ck : ClientKey S} {pc : Cloud} {B D : Nat}

/-- On words of message `m` the look-up `f` takes at most one bootstrap (none for a trivial word) and gives a word with fresh
noise, which holds `d` if, and only if, `R`. -/
def Computes (ck : ClientKey S) (pc : Cloud) (B : Nat) (f : Word S.C → M (Word S.C)) (m d : Int) (R : Prop) : Prop :=
  ∀ (w : Word S.C) (k : Nat), k ≤ tolWeight pc.params.quadWeight → WordEnc ck B w m k →
    ∃ r n v, Returns (f w) r n ∧ (n = if w.isTriv then 0 else 1) ∧ WordEnc ck B r v 1 ∧ (v % 32 = d % 32 ↔ R)

/-- where it is computed, the result is an encryption of the documented value -/
theorem Computes.value {f : Word S.C → M (Word S.C)} {m d : Int} {R : Prop} (h : Computes ck pc B f m d R) (hR : R)
    {w : Word S.C} {k : Nat} (hk : k ≤ tolWeight pc.params.quadWeight) (hw : WordEnc ck B w m k) :
    Yields (f w) fun r => WordEnc ck B r d 1 := by
  obtain ⟨r, n, v, h1, _, h3, h4⟩ := h w k hk hw
  exact ⟨r, n, h1, h3.congr (h4.2 hR)⟩

theorem computes_table (st : Setting S ck pc B D) {lut : List Nat} (hl : 16 ≤ lut.length) (hr : ∀ v ∈ lut, v < 32) {m d : Int}
    {R : Prop} (h : tableAt (lut.map fun (v : Nat) => (v : Int)) m % 32 = d % 32 ↔ R) :
    Computes ck pc B (fun w => evalLut5Uint S pc w lut) m d R := by
  intro w k hk hw
  obtain ⟨r, n, h1, h2, _, h4⟩ := evalLut5Uint_spec st hl hr hk hw
  exact ⟨r, n, _, h1, h4, h2, h⟩

variable {m : Int}

/-- **C79.** `id__pi_5`: the message itself, for `|X| ≤ 8`. -/
theorem C79_id (st : Setting S ck pc B D) (h1 : -16 ≤ m) (h2 : m < 16) :
    Computes ck pc B (pbsId S pc) m m (m.natAbs ≤ 8) :=
  computes_table st (by decide) (by decide) (by interval_cases m <;> decide)

/-- **C79.** `f_3__pi_5`: `X ⋛ ±3`, for `|X| ≤ 13`. -/
theorem C79_f3 (st : Setting S ck pc B D) (h1 : -16 ≤ m) (h2 : m < 16) :
    Computes ck pc B (pbsF3 S pc) m (threshold 3 m) (m.natAbs ≤ 13) :=
  computes_table st (by decide) (by decide) (by interval_cases m <;> decide)

/-- **C79.** `f_4__pi_5`: `X ⋛ ±4`, for `|X| ≤ 12`. -/
theorem C79_f4 (st : Setting S ck pc B D) (h1 : -16 ≤ m) (h2 : m < 16) :
    Computes ck pc B (pbsF4 S pc) m (threshold 4 m) (m.natAbs ≤ 12) :=
  computes_table st (by decide) (by decide) (by interval_cases m <;> decide)

/-- **C79.** `f_5__pi_5`: `X ⋛ ±5`, for `|X| ≤ 11`. -/
theorem C79_f5 (st : Setting S ck pc B D) (h1 : -16 ≤ m) (h2 : m < 16) :
    Computes ck pc B (pbsF5 S pc) m (threshold 5 m) (m.natAbs ≤ 11) :=
  computes_table st (by decide) (by decide) (by interval_cases m <;> decide)

/-- **C79.** `g_2__pi_5__with_val`: `±val` at `±2`, for all messages but `±14`. -/
theorem C79_g2 (st : Setting S ck pc B D) (h1 : -16 ≤ m) (h2 : m < 16) {val : Nat} (hv : 0 < val) (hv' : val < 32) :
    Computes ck pc B (fun w => pbsG2 S pc w val) m (equalsTwo val m) (m.natAbs ≠ 14) :=
  computes_table st (by simp [lutG2]) (by intro a ha; simp [lutG2] at ha; omega)
    (by interval_cases m <;> simp [tableAt, lutG2, equalsTwo] <;> omega)

/-- **C79.** `f_1__pi_5__with_val`: the sign times `val`, for all messages but -16. -/
theorem C79_f1 (st : Setting S ck pc B D) (h1 : -16 ≤ m) (h2 : m < 16) {val : Nat} (hv : 0 < val) (hv' : val < 32) :
    Computes ck pc B (fun w => pbsF1 S pc w val) m (signTimes val m) (m ≠ -16) :=
  computes_table st (by simp [lutF1]) (by intro a ha; simp [lutF1] at ha; omega)
    (by interval_cases m <;> simp [tableAt, lutF1, signTimes, threshold] <;> omega)

/-- **C79.** `f_0__pi_5__with_val`: `val` or `-val`, for all messages. -/
theorem C79_f0 (st : Setting S ck pc B D) (h1 : -16 ≤ m) (h2 : m < 16) {val : Nat} (hv' : val < 32) :
    Computes ck pc B (fun w => pbsF0 S pc w val) m (signPlusTimes val m) True :=
  computes_table st (by simp [lutF0]) (by intro a ha; simp [lutF0] at ha; omega)
    (by interval_cases m <;> simp [tableAt, lutF0, signPlusTimes])

/-- **C79.** `a_2__pi_5`: `|X| ≥ 2`, for `-8 ≤ X < 8`. -/
theorem C79_a2 (st : Setting S ck pc B D) (h1 : -16 ≤ m) (h2 : m < 16) :
    Computes ck pc B (pbsA2 S pc) m (absAtLeast 2 m) (-8 ≤ m ∧ m < 8) :=
  computes_table st (by decide) (by decide) (by interval_cases m <;> decide)

/-- **C79.** `a_1__pi_5`: `|X| ≥ 1`, for `-8 ≤ X < 8`. -/
theorem C79_a1 (st : Setting S ck pc B D) (h1 : -16 ≤ m) (h2 : m < 16) :
    Computes ck pc B (pbsA1 S pc) m (absAtLeast 1 m) (-8 ≤ m ∧ m < 8) :=
  computes_table st (by decide) (by decide) (by interval_cases m <;> decide)

/-- **C79.** `mul_bit__pi_5`: the product of two digits serialised as `3X + Y`. -/
theorem C79_mul_bit (st : Setting S ck pc B D) {x y : Int} (hx : IsDigit x) (hy : IsDigit y) :
    Computes ck pc B (pbsMulBit S pc) (3 * x + y) (x * y) True :=
  computes_table st (by decide) (by decide)
    (by rcases hx with h | h | h <;> rcases hy with h' | h' | h' <;> subst h <;> subst h' <;> decide)

/-- **C79.** `relu_plus__pi_5`: for `X ≤ 3`, except -13 and -15.  For `X ≥ 4` it gives 0 instead of `X - 2`. -/
theorem C79_relu_plus (st : Setting S ck pc B D) (h1 : -16 ≤ m) (h2 : m < 16) :
    Computes ck pc B (pbsReluPlus S pc) m (reluPlus m) (m ≤ 3 ∧ m ≠ -13 ∧ m ≠ -15) :=
  computes_table st (by decide) (by decide) (by interval_cases m <;> decide)

/-- **C79.** `round_2y_s__pi_5`: the documented cases. -/
theorem C79_round (st : Setting S ck pc B D) (h1 : -3 ≤ m) (h2 : m ≤ 3) :
    Computes ck pc B (pbsRound S pc) m (if m = -3 then -1 else if m ≤ 1 then 0 else 1) True :=
  computes_table st (by decide) (by decide) (by interval_cases m <;> decide)

/-- **C79.** `max_s_2x_6y__pi_5`: selects `x` if `s = 1` and `y` if `s = 0`. -/
theorem C79_max (st : Setting S ck pc B D) {x y s : Int} (hx : IsDigit x) (hy : IsDigit y) (hs : s = 0 ∨ s = 1) :
    Computes ck pc B (pbsMax S pc) (s + 2 * x + 6 * y) (if s = 1 then x else y) True :=
  computes_table st (by decide) (by decide)
    (by rcases hx with h | h | h <;> rcases hy with h' | h' | h' <;> rcases hs with h'' | h'' <;>
      subst h <;> subst h' <;> subst h'' <;> decide)

/-- **C79.** `squ_3_bit__pi_5`: all six positions hold the bits of the square exactly for `|X| ≤ 8`, and for
`X = -16`, whose square has only zero bits there. -/
theorem C79_squ (st : Setting S ck pc B D) (h1 : -16 ≤ m) (h2 : m < 16) :
    ∃ R : Nat → Prop, ((∀ p ≤ 5, R p) ↔ m.natAbs ≤ 8 ∨ m = -16) ∧
      ∀ p ≤ 5, ∀ (w : Word S.C) (k : Nat), k ≤ tolWeight pc.params.quadWeight → WordEnc ck B w m k →
        ∃ r n v, Returns (pbsSqu3 S pc w p) r n ∧ WordEnc ck B r v 1 ∧ (v % 32 = (m * m / 2 ^ p % 2) % 32 ↔ R p) := by
  let lut : Nat → List Nat := fun p => match p with
    | 0 => lutSqu0
    | 2 => lutSqu2
    | 3 => lutSqu3
    | 4 => lutSqu4
    | 5 => lutSqu5
    | _ => List.replicate 16 0
  refine ⟨fun p => tableAt ((lut p).map fun (v : Nat) => (v : Int)) m % 32 = (m * m / 2 ^ p % 2) % 32, ?_, ?_⟩
  · have e : (∀ p ≤ 5, tableAt ((lut p).map fun (v : Nat) => (v : Int)) m % 32 = (m * m / 2 ^ p % 2) % 32) ↔
        ∀ p < 6, tableAt ((lut p).map fun (v : Nat) => (v : Int)) m % 32 = (m * m / 2 ^ p % 2) % 32 :=
      forall_congr' fun p => by rw [Nat.lt_succ_iff]
    rw [e]
    interval_cases m <;> decide
  · intro p hp w k hk hw
    have key : ∀ l : List Nat, 16 ≤ l.length → (∀ v ∈ l, v < 32) → lut p = l → pbsSqu3 S pc w p = evalLut5Uint S pc w l →
        ∃ r n v, Returns (pbsSqu3 S pc w p) r n ∧ WordEnc ck B r v 1 ∧
          (v % 32 = (m * m / 2 ^ p % 2) % 32 ↔
            tableAt ((lut p).map fun (v : Nat) => (v : Int)) m % 32 = (m * m / 2 ^ p % 2) % 32) := by
      intro l hl hr e1 e2
      obtain ⟨r, n, h1, h2, _⟩ := evalLut5Uint_spec st hl hr hk hw
      rw [e1, e2]
      exact ⟨r, n, _, h1, h2, Iff.rfl⟩
    match p, hp with
    | 0, _ => exact key lutSqu0 (by decide) (by decide) rfl rfl
    | 1, _ =>
      refine ⟨_, 0, 0, Returns.pure _, WordEnc.triv st 0 1, ?_⟩
      have : tableAt ((List.replicate 16 0).map fun (v : Nat) => (v : Int)) m = 0 := by interval_cases m <;> decide
      show _ ↔ tableAt ((List.replicate 16 0).map fun (v : Nat) => (v : Int)) m % 32 = _
      rw [this]
    | 2, _ => exact key lutSqu2 (by decide) (by decide) rfl rfl
    | 3, _ => exact key lutSqu3 (by decide) (by decide) rfl rfl
    | 4, _ => exact key lutSqu4 (by decide) (by decide) rfl rfl
    | 5, _ => exact key lutSqu5 (by decide) (by decide) rfl rfl

/-- **C79.** Other positions of `squ_3_bit__pi_5` panic. -/
theorem C79_squ_panics (w : Word S.C) {p : Nat} (hp : 5 < p) : Fails (pbsSqu3 S pc w p) (.panic .squPos) := by
  match p, hp with
  | p + 6, _ => exact fun _ => rfl

end

/-- cases: `X ⋛ ±5` of an encrypted -7 is -1, of an encrypted 12 it is 0 instead of 1 -/
example : Yields (pbsF5 Demo.scheme Demo.cloud (encryptWord Demo.ck 32 3 (-7))) fun r => WordEnc Demo.ck (2 ^ 53) r (-1) 1 :=
  (C79_f5 (m := -7) Demo.st (by norm_num) (by norm_num)).value (by decide) (Demo.st.wt8 (k := 1) (by norm_num))
    (encryptWord_spec Demo.st 3 (-7))
example : ∃ r n v, Returns (pbsF5 Demo.scheme Demo.cloud (encryptWord Demo.ck 32 3 12)) r n ∧ WordEnc Demo.ck (2 ^ 53) r v 1 ∧
    v % 32 ≠ 1 := by
  obtain ⟨r, n, v, h1, _, h2, h3⟩ := C79_f5 (m := 12) Demo.st (by norm_num) (by norm_num) _ 1
    (Demo.st.wt8 (by norm_num)) (encryptWord_spec Demo.st 3 12)
  exact ⟨r, n, v, h1, h2, fun e => absurd (h3.1 e) (by decide)⟩

end Parm
