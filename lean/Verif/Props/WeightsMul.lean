import Verif.Proof.WeightSqu
import Verif.Proof.FastAll
import Verif.Props.Weights
import Verif.Props.Multiplication

/-!
# Property C39: weights of products and squares
-/

namespace Parm

variable {pc : Cloud} {x y : Ctxt Term}

/-- The server key is of the shipped message space (4 bits and no carry) and of a degree it can be laid out in. -/
def Sized (pc : Cloud) : Prop := pc.msgMod = 32 ∧ pc.carryMod = 1 ∧ ∃ k, 0 < k ∧ pc.polySize = 32 * k

theorem Sized.acc (h : Sized pc) : ∃ box, AccCond pc box := by
  obtain ⟨h1, h2, k, h3, h4⟩ := h
  exact ⟨k, h1, h2, by omega, h3⟩

/-- **C39.** A product of two encrypted ciphertexts of any lengths
bootstraps no word of a quadratic weight above 20 if their words are different samples. -/
theorem C39_mul (h : Sized pc) (hs : Samples (x ++ y)) (hi : Independent (x ++ y)) :
    Boots (fun t => t.quadWeight ≤ 20) (ctMul freeScheme pc x y) := by
  by_cases h32 : 32 < x.length ∨ 32 < y.length
  · intro s z s' e
    rw [C20_mul_too_long (S := freeScheme) (pc := pc) x y h32 s] at e
    cases e
  · exact Fast.mul_quad h.1 hs hi (by omega) (by omega)

/-- a bound on every weight that is bounded by hashes -/
theorem squ_weights (h : Sized pc) (hs : Samples x) (hi : Independent x) {Q : Term → Nat}
    (hQ : ∀ (ι : Nat → Nat) (u : Term), Q u ≤ HashW.quad (u.hashW ι).ms) : Boots (fun t => Q t ≤ 21) (ctSqu freeScheme pc x) := by
  by_cases h32 : 32 < x.length
  · intro s z s' e
    rw [C20_squ_too_long (S := freeScheme) (pc := pc) x h32 s] at e
    cases e
  have h32 : x.length ≤ 32 := by omega
  obtain ⟨ι, hι⟩ := exists_numbering hs hi
  have hx : CRel (fun (t : Term) (d : HashW) => d = t.hashW ι) x (hashCt 0 x.length) := by
    refine crel_hash 0 fun j hj => ?_
    simpa only [Nat.zero_add] using hι j hj
  have hr := (hashRel ι).ctSqu pc hx
  rw [(hash_agree h.acc.choose_spec).squ] at hr
  obtain ⟨q, hq, e⟩ := hashSqu_all _ h32
  exact fun s z s' g w hw t et u hu => le_trans (boots_of_hash (hQ ι) hr e s z s' g w hw t et u hu) hq

/-- **C39.** A square of an encrypted ciphertext of any length bootstraps no word of a
quadratic weight above 21 if its words are different samples. -/
theorem C39_squ (h : Sized pc) (hs : Samples x) (hi : Independent x) :
    Boots (fun t => t.quadWeight ≤ 21) (ctSqu freeScheme pc x) :=
  squ_weights h hs hi fun ι => Term.quadWeight_le_quad ι

/-- The bound on products is met. -/
theorem C39_mul_met : (20, 8) ∈ weightsOf (ctMul freeScheme (cloudQ 22) (inputs 0 3) (inputs 3 3)) :=
  List.mem_of_getElem? (i := 11) (by decide +kernel)

/-! Cases of the hypotheses -/

private theorem sized_unit : Sized unitCloud := ⟨rfl, rfl, 64, by norm_num, rfl⟩

private theorem samples_inputs (a n : Nat) : Samples (inputs a n) := by
  intro w hw
  simp only [inputs, List.mem_map] at hw
  obtain ⟨i, _, rfl⟩ := hw
  exact ⟨rfl, _, rfl⟩

example : Boots (fun t => t.quadWeight ≤ 20) (ctMul freeScheme unitCloud (inputs 0 32) (inputs 32 32)) :=
  C39_mul sized_unit (fun w hw => (List.mem_append.1 hw).elim (samples_inputs 0 32 w) (samples_inputs 32 32 w))
    (inputs_independent 0 32 32 32 (by norm_num))

example : Boots (fun t => t.quadWeight ≤ 20) (ctMul freeScheme unitCloud (inputs 0 32) (inputs 32 7)) :=
  C39_mul sized_unit (fun w hw => (List.mem_append.1 hw).elim (samples_inputs 0 32 w) (samples_inputs 32 7 w))
    (inputs_independent 0 32 32 7 (by norm_num))

end Parm
