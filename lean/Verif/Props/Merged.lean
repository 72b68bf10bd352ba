import Verif.Proof.MergedMul
import Verif.Proof.FastAll
import Verif.Proof.MergedShift
import Verif.Proof.WeightMerged
import Verif.Props.WeightsMul
import Verif.Proof.AnyOps
import Verif.Model.Tfhe

/-!
# Property C80: weights over ciphertexts that are the same
-/

namespace Parm

/-- **C80.** Two terms have the same combination exactly if they are the same ciphertext in every scheme whose linear
operations are those of a group, for all samples from outside. -/
theorem C80_canonical (s t : Term) :
    s.comb = t.comb ↔ ∀ (S : Scheme) [AddCommGroup S.C], Lawful S → ∀ ρ, s.eval S ρ = t.eval S ρ :=
  ⟨fun h _ _ hS ρ => Mg.eval_of_comb hS ρ _ s t (Nat.le_max_left _ _) (Nat.le_max_right _ _) h,
    fun h => h combScheme Mg.lawful_comb _⟩

/-- **C80.** In such a scheme a word is the combination of ciphertexts given by its `comb`: ciphertext `k` is the value of all
samples with number `k`. -/
theorem C80_combination {S : Scheme} [AddCommGroup S.C] (hS : Lawful S) (ρ : Nat → S.C) (t : Term) :
    ∃ (v : Nat → S.C) (pt : BitVec 64 →+ S.C), (∀ c p, S.addPt c p = c + pt p) ∧
      (∀ a ∈ t.samples, ∀ k, a.comb.1 = Finsupp.single k 1 → v k = a.eval S ρ) ∧
      t.eval S ρ = ∑ k ∈ t.comb.1.support, t.comb.1 k • v k + pt t.comb.2 := by
  classical
  obtain ⟨pt, hpt⟩ := hS.addPt
  have lin := Mg.linear_sum (fun t => t.eval S ρ) pt (fun _ _ => hS.add _ _) (fun _ => hS.neg _) (fun _ _ => hS.mulC _ _)
    (fun _ _ => hpt _ _) t t.samples (Finset.Subset.refl _)
  have same : ∀ a b : Term, Mg.IsSample a → Mg.IsSample b → Mg.sid a = Mg.sid b → a.eval S ρ = b.eval S ρ := by
    intro a b ha hb h
    refine (C80_canonical a b).1 (Prod.ext ?_ ?_) S hS ρ
    · rw [Mg.comb_of_isSample ha, Mg.comb_of_isSample hb, h]
    · rcases ha with ⟨i, rfl⟩ | ⟨acc, u, rfl⟩ <;> rcases hb with ⟨j, rfl⟩ | ⟨acc', v, rfl⟩ <;> rfl
  have hv : ∀ k, ∃ c : S.C, ∀ a, Mg.IsSample a → Mg.sid a = k → a.eval S ρ = c := by
    intro k
    by_cases h : ∃ a, Mg.IsSample a ∧ Mg.sid a = k
    · obtain ⟨a, ha, e⟩ := h
      exact ⟨a.eval S ρ, fun b hb e' => same b a hb ha (e'.trans e.symm)⟩
    · exact ⟨0, fun a ha e => absurd ⟨a, ha, e⟩ h⟩
  choose v hv using hv
  refine ⟨v, pt, hpt, fun a ha k hk => ?_, ?_⟩
  · rw [Mg.comb_of_isSample (Mg.isSample_of_mem ha)] at hk
    exact (hv k a (Mg.isSample_of_mem ha) ((Finsupp.single_left_inj one_ne_zero).1 hk)).symm
  · refine lin.trans ?_
    congr 1
    have hs : t.comb.1.support ⊆ t.samples.image Mg.sid := by
      intro k hk
      by_contra hc
      refine (Finsupp.mem_support_iff.1 hk) ?_
      rw [Mg.comb_apply]
      refine Finset.sum_eq_zero fun a ha => ?_
      obtain ⟨h1, rfl⟩ := Finset.mem_filter.1 ha
      exact absurd (Finset.mem_image_of_mem _ h1) hc
    rw [Finset.sum_subset hs fun k _ hk => by rw [Finsupp.notMem_support_iff.1 hk, zero_smul],
      ← Finset.sum_fiberwise_of_maps_to (g := Mg.sid) (t := t.samples.image Mg.sid) fun a ha => Finset.mem_image_of_mem _ ha]
    refine Finset.sum_congr rfl fun k _ => ?_
    rw [Mg.comb_apply, Finset.sum_smul]
    refine Finset.sum_congr rfl fun a ha => ?_
    obtain ⟨h1, h2⟩ := Finset.mem_filter.1 ha
    rw [hv k a (Mg.isSample_of_mem h1) h2]

/-! ### The textbook scheme -/

namespace Tfhe

instance {ι : Type} : Add (Lwe ι) := ⟨fun x y => ⟨fun p => x.a p + y.a p, x.b + y.b⟩⟩
instance {ι : Type} : Zero (Lwe ι) := ⟨⟨fun _ => 0, 0⟩⟩
instance {ι : Type} : Neg (Lwe ι) := ⟨fun x => ⟨fun p => - x.a p, - x.b⟩⟩

private theorem Lwe.ext' {ι : Type} {x y : Lwe ι} (h : ∀ p, x.a p = y.a p) (h' : x.b = y.b) : x = y := by
  cases x; cases y; congr; exact funext h

/-- samples form a group -/
instance {ι : Type} : AddCommGroup (Lwe ι) where
  add_assoc x y z := Lwe.ext' (fun p => add_assoc (x.a p) (y.a p) (z.a p)) (add_assoc x.b y.b z.b)
  zero_add x := Lwe.ext' (fun p => zero_add (x.a p)) (zero_add x.b)
  add_zero x := Lwe.ext' (fun p => add_zero (x.a p)) (add_zero x.b)
  add_comm x y := Lwe.ext' (fun p => add_comm (x.a p) (y.a p)) (add_comm x.b y.b)
  neg_add_cancel x := Lwe.ext' (fun p => neg_add_cancel (x.a p)) (neg_add_cancel x.b)
  nsmul := nsmulRec
  zsmul := zsmulRec

/-- coordinates of a sample -/
private def maskHom (ι : Type) (p : ι) : Lwe ι →+ BitVec 64 where
  toFun x := x.a p
  map_zero' := rfl
  map_add' _ _ := rfl

private def bodyHom (ι : Type) : Lwe ι →+ BitVec 64 where
  toFun x := x.b
  map_zero' := rfl
  map_add' _ _ := rfl

/-- **C80.** The textbook scheme is such a scheme. -/
theorem C80_lawful (P : Par) (K : Secret) : @Lawful (scheme P K) (inferInstanceAs (AddCommGroup (Lwe (Nat × Nat)))) := by
  let _ : AddCommGroup (scheme P K).C := inferInstanceAs (AddCommGroup (Lwe (Nat × Nat)))
  have hk : ∀ (z : BitVec 64) (k : BitVec 64), z * k = k.toInt • z := by
    intro z k
    rw [zsmul_eq_mul, mul_comm]
    congr 1
    exact (BitVec.ofInt_toInt (x := k)).symm
  refine ⟨fun _ _ => rfl, fun _ => rfl, fun x k => ?_, ⟨⟨⟨fun p => (⟨fun _ => 0, p⟩ : Lwe (Nat × Nat)), rfl⟩, fun p q => ?_⟩, fun x p => ?_⟩⟩
  · have h1 : ∀ p, (k.toInt • (x : Lwe (Nat × Nat))).a p = k.toInt • Lwe.a x p := fun p => map_zsmul (maskHom (Nat × Nat) p) _ _
    have h2 : (k.toInt • (x : Lwe (Nat × Nat))).b = k.toInt • Lwe.b x := map_zsmul (bodyHom (Nat × Nat)) _ _
    show (⟨fun p => Lwe.a x p * k, Lwe.b x * k⟩ : Lwe (Nat × Nat)) = k.toInt • (x : Lwe (Nat × Nat))
    rcases hx : k.toInt • (x : Lwe (Nat × Nat)) with ⟨a, b⟩
    rw [hx] at h1 h2
    congr 1
    · funext p; rw [hk]; exact (h1 p).symm
    · rw [hk]; exact h2.symm
  · show (⟨fun _ => 0, p + q⟩ : Lwe (Nat × Nat)) = ⟨fun _ => (0 : BitVec 64) + 0, p + q⟩
    simp
  · show (⟨Lwe.a x, Lwe.b x + p⟩ : Lwe (Nat × Nat)) = ⟨fun i => Lwe.a x i + 0, Lwe.b x + p⟩
    simp

end Tfhe

/-! ### Products -/

variable {pc : Cloud} {x y : Ctxt Term}

private theorem exceeds {m : M (Ctxt Term)} {n : Nat} (hr : ∃ z n, Returns m z n) (h : Ensures m Mg.Heavy) (hn : n < 36) :
    ¬ Boots (fun t => t.mergedWeight ≤ n) m := by
  intro hb
  obtain ⟨z, k, hz⟩ := hr
  obtain ⟨r, rep, _, e⟩ := hz (St.init .seq)
  obtain ⟨u, ⟨w, hw, t, ht, hu⟩, e36⟩ := h _ _ _ e
  have := hb _ _ _ e w hw t ht u hu
  omega

/-- **C80.** A product of a ciphertext of 32 words and one of at most 16 words, in either order, returns, and bootstraps a
combination of ciphertexts of quadratic weight 36 (or more): the words missing in the shorter operand are trivial zeros, the
products with them are all the same ciphertext, and so are the two half products that are added. -/
theorem C80_mul_exceeds (h : Sized pc) (hx : ∀ w ∈ x, w.isTriv = false ∧ w.msgMod = 32) (hy : ∀ w ∈ y, w.msgMod = 32)
    (h1 : x.length = 32) (h2 : y.length ≤ 16) :
    ¬ Boots (fun t => t.mergedWeight ≤ 35) (ctMul freeScheme pc x y) ∧
    ¬ Boots (fun t => t.mergedWeight ≤ 35) (ctMul freeScheme pc y x) := by
  have hx' : ∀ w ∈ x, w.msgMod = 32 := fun w hw => (hx w hw).2
  obtain ⟨a, b⟩ := Mg.heavy_mul h.1 mulFuel h1 h2 fun w hw => (hx w hw).1
  obtain ⟨z, n, hz, _⟩ := ctMul_any (S := freeScheme) ⟨h.1, h.2.1⟩ hx' hy (by omega)
  obtain ⟨z', n', hz', _⟩ := ctMul_any (S := freeScheme) ⟨h.1, h.2.1⟩ hy hx' (by omega)
  exact ⟨exceeds ⟨z, n, hz⟩ a.call (by norm_num), exceeds ⟨z', n', hz'⟩ b.call (by norm_num)⟩

/-- **C80.** So does the product of a ciphertext of 16 or 18 to 32 words and one without words, in either order. -/
theorem C80_mul_empty_exceeds (h : Sized pc) (hx : ∀ w ∈ x, w.isTriv = false ∧ w.msgMod = 32)
    (h1 : 16 ≤ x.length) (h2 : x.length ≤ 32) (h3 : x.length ≠ 17) :
    ¬ Boots (fun t => t.mergedWeight ≤ 35) (ctMul freeScheme pc x []) ∧
    ¬ Boots (fun t => t.mergedWeight ≤ 35) (ctMul freeScheme pc [] x) := by
  have hx' : ∀ w ∈ x, w.msgMod = 32 := fun w hw => (hx w hw).2
  obtain ⟨a, b⟩ := Mg.heavy_mul_nil h.1 mulFuel h1 h2 h3 fun w hw => (hx w hw).1
  obtain ⟨z, n, hz, _⟩ := ctMul_any (S := freeScheme) ⟨h.1, h.2.1⟩ hx' (by simp : ∀ w ∈ ([] : Ctxt Term), w.msgMod = 32) (by simpa)
  obtain ⟨z', n', hz', _⟩ := ctMul_any (S := freeScheme) ⟨h.1, h.2.1⟩ (by simp : ∀ w ∈ ([] : Ctxt Term), w.msgMod = 32) hx' (by simpa)
  exact ⟨exceeds ⟨z, n, hz⟩ a.call (by norm_num), exceeds ⟨z', n', hz'⟩ b.call (by norm_num)⟩

/-- **C80.** In all other cases a product of encrypted ciphertexts of which the words are different samples bootstraps no
combination of ciphertexts of quadratic weight above 20. -/
theorem C80_mul (h : Sized pc) (hs : Samples (x ++ y)) (hi : Independent (x ++ y))
    (h1 : x.length = 32 → 16 < y.length) (h2 : y.length = 32 → 16 < x.length)
    (h3 : y.length = 0 → x.length < 16 ∨ x.length = 17) (h4 : x.length = 0 → y.length < 16 ∨ y.length = 17) :
    Boots (fun t => t.mergedWeight ≤ 20) (ctMul freeScheme pc x y) := by
  by_cases h32 : 32 < x.length ∨ 32 < y.length
  · intro s z s' e
    rw [C20_mul_too_long (S := freeScheme) (pc := pc) x y h32 s] at e
    cases e
  refine Fast.mul_merged h.1 hs hi (by omega) (by omega) ?_
  rw [← Bool.not_eq_true]
  simp only [Fast.exc, Bool.or_eq_true, Bool.and_eq_true, Nat.beq_eq_true_eq, Nat.beq_eq, Nat.ble_eq, Bool.not_eq_true', ← Bool.not_eq_true]
  omega

/-- **C80.** So the products that stay within the shipped weight of 22 are known exactly. -/
theorem C80_mul_iff (h : Sized pc) (hs : Samples (x ++ y)) (hi : Independent (x ++ y)) (hx : x.length ≤ 32) (hy : y.length ≤ 32) :
    Boots (fun t => t.mergedWeight ≤ 22) (ctMul freeScheme pc x y) ↔
    ¬ (x.length = 32 ∧ y.length ≤ 16 ∨ y.length = 32 ∧ x.length ≤ 16 ∨
       y.length = 0 ∧ 16 ≤ x.length ∧ x.length ≠ 17 ∨ x.length = 0 ∧ 16 ≤ y.length ∧ y.length ≠ 17) := by
  have sx : ∀ w ∈ x, w.isTriv = false ∧ w.msgMod = 32 := fun w hw => by
    obtain ⟨hm, i, e⟩ := hs w (List.mem_append_left _ hw)
    exact ⟨by simp [Word.isTriv, e], hm⟩
  have sy : ∀ w ∈ y, w.isTriv = false ∧ w.msgMod = 32 := fun w hw => by
    obtain ⟨hm, i, e⟩ := hs w (List.mem_append_right _ hw)
    exact ⟨by simp [Word.isTriv, e], hm⟩
  have weak : Boots (fun t => t.mergedWeight ≤ 22) (ctMul freeScheme pc x y) →
      Boots (fun t => t.mergedWeight ≤ 35) (ctMul freeScheme pc x y) := fun hb => hb.mono fun t ht => ht.trans (by norm_num)
  constructor
  · rintro hb (⟨a, b⟩ | ⟨a, b⟩ | ⟨a, b, c⟩ | ⟨a, b, c⟩)
    · exact (C80_mul_exceeds h sx (fun w hw => (sy w hw).2) a b).1 (weak hb)
    · exact (C80_mul_exceeds h sy (fun w hw => (sx w hw).2) a b).2 (weak hb)
    · obtain rfl := List.length_eq_zero_iff.1 a
      exact (C80_mul_empty_exceeds h sx b hx c).1 (weak hb)
    · obtain rfl := List.length_eq_zero_iff.1 a
      exact (C80_mul_empty_exceeds h sy b hy c).2 (weak hb)
  · intro hn
    exact (C80_mul h hs hi (by omega) (by omega) (by omega) (by omega)).mono fun t ht => ht.trans (by norm_num)

/-- **C80.** Squares of encrypted ciphertexts of which the words are different samples stay within 21 at every length. -/
theorem C80_squ (h : Sized pc) (hs : Samples x) (hi : Independent x) : Boots (fun t => t.mergedWeight ≤ 21) (ctSqu freeScheme pc x) :=
  squ_weights h hs hi fun ι => Term.mergedWeight_le_quad ι

/-- **C80.** A product of encrypted ciphertexts, of three or more words, with one that was shifted left by two words exceeds
the weight at every length: both zeros below make the product's first words equal ciphertexts, of which then
`3 (a + b) + (a + c)` is bootstrapped. -/
theorem C80_mul_shift_exceeds (h : Sized pc) (hx : ∀ w ∈ x, w.isTriv = false ∧ w.msgMod = 32)
    (hy : ∀ w ∈ y, w.isTriv = false ∧ w.msgMod = 32) (h1 : 3 ≤ x.length) (h2 : x.length ≤ 32) (h3 : y ≠ []) (h4 : y.length ≤ 30) :
    ¬ Boots (fun t => t.mergedWeight ≤ 25) (ctMul freeScheme pc x (ctShift pc y 2)) := by
  intro hb
  have hm := h.1
  obtain ⟨z, k, hz, _⟩ := ctMul_any (S := freeScheme) (x := x) (y := ctShift pc y 2) ⟨h.1, h.2.1⟩ (fun w hw => (hx w hw).2)
    (fun w hw => by
      simp only [ctShift, trivCt] at hw
      rw [if_neg (by norm_num)] at hw
      rcases List.mem_append.1 hw with hw | hw
      · rw [List.eq_of_mem_replicate hw]; exact hm
      · exact (hy w hw).2) (by simp [ctShift, trivCt]; omega)
  obtain ⟨r, rep, _, e⟩ := hz (St.init .seq)
  obtain ⟨u, ⟨w, hw, t, ht, hu⟩, e26⟩ := (Mg.heavier_shift hm mulFuel h1 (fun w hw => (hx w hw).1) h3 fun w hw => (hy w hw).1).call _ _ _ e
  have := hb _ _ _ e w hw t ht u hu
  omega

/-! Cases of the hypotheses -/

example : Boots (fun t => t.mergedWeight ≤ 21) (ctSqu freeScheme unitCloud (inputs 0 31)) :=
  C80_squ ⟨rfl, rfl, 64, by norm_num, rfl⟩
    (fun w hw => by simp only [inputs, List.mem_map] at hw; obtain ⟨i, _, rfl⟩ := hw; exact ⟨rfl, _, rfl⟩)
    (by simpa [inputs] using inputs_independent 0 31 31 0 (by norm_num))

example : ¬ Boots (fun t => t.mergedWeight ≤ 25) (ctMul freeScheme unitCloud (inputs 0 3) (ctShift unitCloud (inputs 3 1) 2)) :=
  C80_mul_shift_exceeds ⟨rfl, rfl, 64, by norm_num, rfl⟩
    (fun w hw => by simp only [inputs, List.mem_map] at hw; obtain ⟨i, _, rfl⟩ := hw; exact ⟨rfl, rfl⟩)
    (fun w hw => by simp only [inputs, List.mem_map] at hw; obtain ⟨i, _, rfl⟩ := hw; exact ⟨rfl, rfl⟩)
    (by simp [inputs]) (by simp [inputs]) (by simp [inputs]) (by simp [inputs])

example : Boots (fun t => t.mergedWeight ≤ 20) (ctMul freeScheme unitCloud (inputs 0 32) (inputs 32 17)) :=
  C80_mul ⟨rfl, rfl, 64, by norm_num, rfl⟩
    (fun w hw => by
      simp only [inputs, List.mem_append, List.mem_map] at hw
      obtain ⟨i, _, rfl⟩ | ⟨i, _, rfl⟩ := hw <;> exact ⟨rfl, _, rfl⟩)
    (inputs_independent 0 32 32 17 (by norm_num)) (by simp [inputs]) (by simp [inputs]) (by simp [inputs]) (by simp [inputs])

/-- `0 · x = 0 · y` for different samples: the same ciphertext, though different terms -/
example : (Term.mulC (.input 1) 0).comb = (Term.mulC (.input 2) 0).comb ∧ Term.mulC (.input 1) 0 ≠ Term.mulC (.input 2) 0 := by
  refine ⟨?_, by simp⟩
  rw [Mg.comb_mulC, Mg.comb_mulC]
  simp

/-- so that the sum of their bootstraps has weight 4 rather than 2 -/
example : ((Term.boot [] (.mulC (.input 1) 0)).add (.boot [] (.mulC (.input 2) 0))).mergedWeight = 4 ∧
    ((Term.boot [] (.mulC (.input 1) 0)).add (.boot [] (.mulC (.input 2) 0))).quadWeight = 2 := by
  constructor
  · have : ((Term.boot [] (.mulC (.input 1) 0)).add (.boot [] (.mulC (.input 2) 0))).comb.1
        = Finsupp.single (2 * lookupNo ([], 0) + 1) 2 := by
      rw [Mg.comb_add, Mg.comb_boot, Mg.comb_boot, Mg.comb_mulC, Mg.comb_mulC]
      simp [← Finsupp.single_add]
    unfold Term.mergedWeight
    rw [this, Finsupp.support_single _ (by norm_num)]
    simp
  · decide +kernel

example : ¬ Boots (fun t => t.mergedWeight ≤ 35) (ctMul freeScheme unitCloud (inputs 0 32) (inputs 32 16)) :=
  (C80_mul_exceeds ⟨rfl, rfl, 64, by norm_num, rfl⟩
    (fun w hw => by simp only [inputs, List.mem_map] at hw; obtain ⟨i, _, rfl⟩ := hw; exact ⟨rfl, rfl⟩)
    (fun w hw => by simp only [inputs, List.mem_map] at hw; obtain ⟨i, _, rfl⟩ := hw; rfl) rfl (by simp [inputs])).1

end Parm
