import Verif.Props.WeightsMul
import Verif.Props.Merged
import Verif.Props.WeightsZeros

/-!
# Properties C39 and C80: short products and squares of operands with trivial zeros

With at most five words a square keeps within the weight wherever there are trivial zeros, and so does a product of at most two
words, even if equal ciphertexts are counted as one.
-/

namespace Parm

variable {pc : Cloud} {x y : Ctxt Term}

/-- encrypted words numbered from `a` where the list says so, trivial zeros elsewhere -/
def hashMask (a : Nat) (bs : List Bool) : Ctxt HashW :=
  (List.range bs.length).map fun i => ⟨if bs.getD i false then .ct (hashInput (hashNum (a + i))) else .triv 0, 32⟩

/-- all lists of `n` truth values -/
def masks : Nat → List (List Bool)
  | 0 => [[]]
  | n + 1 => (masks n).map (false :: ·) ++ (masks n).map (true :: ·)

theorem mem_masks : ∀ bs : List Bool, bs ∈ masks bs.length
  | [] => by simp [masks]
  | b :: bs => by
    have := mem_masks bs
    cases b <;> simp [masks, this]

/-- the result is computed, with weights of at most `q` -/
def hashLe (q : Nat) (m : M (Ctxt HashW)) : Bool :=
  match hashOf m with
  | some k => Nat.ble k q
  | none => false

private theorem squ_table : ∀ n, n ≤ 5 → (masks n).all (fun bs => hashLe 21 (ctSqu hashScheme hashCloud (hashMask 0 bs))) = true
  | 0, _ => by decide +kernel
  | 1, _ => by decide +kernel
  | 2, _ => by decide +kernel
  | 3, _ => by decide +kernel
  | 4, _ => by decide +kernel
  | 5, _ => by decide +kernel
  | n + 6, h => by omega

private theorem mul_table : ∀ n, n ≤ 2 → ∀ k, k ≤ 2 → (masks n).all (fun bs => (masks k).all fun cs =>
    hashLe 20 (ctMul hashScheme hashCloud (hashMask 0 bs) (hashMask n cs))) = true := by
  decide +kernel

/-- every word is a sample or a trivial zero -/
def SampleOrZero (x : Ctxt Term) : Prop := ∀ w ∈ x, w.msgMod = 32 ∧ ((∃ i, w.ct = .ct (.input i)) ∨ w.ct = .triv 0)

private theorem numbering {z : Ctxt Term} (hi : Independent z) :
    ∃ ι : Nat → Nat, ∀ j (hj : j < z.length) i, z[j].ct = .ct (.input i) → ι i = hashNum j := by
  classical
  refine ⟨fun i => hashNum (z.findIdx fun w => decide (w.ct = .ct (.input i))), fun j hj i hc => congrArg hashNum ?_⟩
  have hlt : z.findIdx (fun w => decide (w.ct = .ct (.input i))) < z.length :=
    List.findIdx_lt_length_of_exists ⟨z[j], List.getElem_mem hj, by simpa using hc⟩
  have := List.findIdx_getElem (w := hlt)
  exact hi.2 _ _ hlt hj _ (by simpa using this) hc

private theorem crel_mask {ι : Nat → Nat} {x : Ctxt Term} (a : Nat) (hs : SampleOrZero x)
    (h : ∀ j (hj : j < x.length) i, x[j].ct = .ct (.input i) → ι i = hashNum (a + j)) :
    CRel (fun (t : Term) (d : HashW) => d = t.hashW ι) x (hashMask a (x.map fun w => !w.isTriv)) := by
  refine List.forall₂_of_length_eq_of_get (by simp [hashMask]) fun j hj hj' => ?_
  obtain ⟨hm, hc⟩ := hs x[j] (List.getElem_mem hj)
  have hn := h j hj
  simp only [List.get_eq_getElem, hashMask, List.getElem_map, List.getElem_range]
  rw [List.getD_eq_getElem _ _ (by simpa using hj), List.getElem_map]
  generalize x[j] = w at hm hc hn
  obtain ⟨c, m⟩ := w
  simp only at hm hc hn
  subst hm
  rcases hc with ⟨i, rfl⟩ | rfl
  · rw [← hn i rfl]
    exact WRel.ct 32 ((hashW_eval ι).1 i).symm
  · exact WRel.triv 0 32

private theorem le_of_hashLe {q : Nat} {m : M (Ctxt HashW)} (h : hashLe q m = true) : ∃ k ≤ q, hashOf m = some k := by
  unfold hashLe at h
  split at h
  · exact ⟨_, Nat.le_of_ble_eq_true h, by assumption⟩
  · cases h

/-- a bound on every weight that is bounded by hashes -/
private theorem squ_zeros (h : Sized pc) (hs : SampleOrZero x) (hi : Independent x) (hl : x.length ≤ 5) {Q : Term → Nat}
    (hQ : ∀ (ι : Nat → Nat) (u : Term), Q u ≤ HashW.quad (u.hashW ι).ms) : Boots (fun t => Q t ≤ 21) (ctSqu freeScheme pc x) := by
  obtain ⟨ι, hι⟩ := numbering hi
  have hx := crel_mask (ι := ι) 0 hs fun j hj i e => by simpa only [Nat.zero_add] using hι j hj i e
  have hr := (hashRel ι).ctSqu pc hx
  rw [(hash_agree h.acc.choose_spec).squ] at hr
  have ht := List.all_eq_true.1 (squ_table x.length hl) (x.map fun w => !w.isTriv) (by simpa using mem_masks (x.map fun w => !w.isTriv))
  obtain ⟨q, hq, e⟩ := le_of_hashLe ht
  exact (boots_of_hash (hQ ι) hr e).mono fun t ht => ht.trans hq

private theorem mul_zeros (h : Sized pc) (hs : SampleOrZero (x ++ y)) (hi : Independent (x ++ y)) (hl : x.length ≤ 2)
    (hk : y.length ≤ 2) {Q : Term → Nat} (hQ : ∀ (ι : Nat → Nat) (u : Term), Q u ≤ HashW.quad (u.hashW ι).ms) :
    Boots (fun t => Q t ≤ 20) (ctMul freeScheme pc x y) := by
  obtain ⟨ι, hι⟩ := numbering hi
  have hx := crel_mask (ι := ι) (x := x) 0 (fun w hw => hs w (List.mem_append_left _ hw)) fun j hj i e => by
    have := hι j (by simp; omega) i (by rwa [List.getElem_append_left hj])
    simpa only [Nat.zero_add] using this
  have hy := crel_mask (ι := ι) (x := y) x.length (fun w hw => hs w (List.mem_append_right _ hw)) fun j hj i e =>
    hι (x.length + j) (by simp; omega) i (by
      rw [List.getElem_append_right (by omega)]
      simpa only [Nat.add_sub_cancel_left] using e)
  have hr := (hashRel ι).ctMul pc hx hy
  rw [(hash_agree h.acc.choose_spec).mul] at hr
  have ht := List.all_eq_true.1 (List.all_eq_true.1 (mul_table x.length hl y.length hk) (x.map fun w => !w.isTriv)
    (by simpa using mem_masks (x.map fun w => !w.isTriv))) (y.map fun w => !w.isTriv)
    (by simpa using mem_masks (y.map fun w => !w.isTriv))
  obtain ⟨q, hq, e⟩ := le_of_hashLe ht
  exact (boots_of_hash (hQ ι) hr e).mono fun t ht => ht.trans hq

/-- **C39.** A square of at most five words bootstraps no word of a quadratic weight above 21, wherever there are trivial
zeros, if its other words are different samples. -/
theorem C39_squ_zeros (h : Sized pc) (hs : SampleOrZero x) (hi : Independent x) (hl : x.length ≤ 5) :
    Boots (fun t => t.quadWeight ≤ 21) (ctSqu freeScheme pc x) :=
  squ_zeros h hs hi hl fun ι => Term.quadWeight_le_quad ι

private theorem zero_of {w : Word Term} (hm : pc.msgMod = 32) (h : w.msgMod = 32 ∧ ((∃ i, w.ct = .ct (.input i)) ∨ w.ct = .triv 0))
    (ht : w.isTriv = true) : w = encryptWordTriv Term pc 0 := by
  obtain ⟨c, m⟩ := w
  obtain ⟨rfl, ⟨i, rfl⟩ | rfl⟩ := h
  · cases ht
  · simp only [encryptWordTriv, hm]
    congr 1

/-- **C39.** With any `quad_weight` the constructor accepts (at least 22), no word of a higher quadratic
weight is bootstrapped by these operations on independent operands.  Missing: products of 16 or 18 to 32 words and squares of
more than five words some of which are trivial zeros, and those of more than one word some of which are trivial and not zero;
such products and squares can exceed the weight
(`C39_mul_trivial_exceeds`, and with trivial zeros only `C39_mul_zeros_exceeds`, `C39_squ_zeros_exceeds`), as does `scalar_mul`
(`C39_scalar_mul_exceeds`) and addition of dependent operands (`C39_add_dependent`). -/
theorem C39_independent_partial (hp : Sized pc) (h : Independent (x ++ y)) (hq : 22 ≤ pc.params.quadWeight) (k : Int) (pos : Nat) :
    let ok := Boots fun t => t.quadWeight ≤ pc.params.quadWeight
    ok (ctAdd freeScheme pc x y) ∧ ok (ctSub freeScheme pc x y) ∧ ok (ctAddNoisy freeScheme pc x y) ∧
    ok (ctSubNoisy freeScheme pc x y) ∧ ok (ctAddConst freeScheme pc x k) ∧ ok (ctSgn freeScheme pc x) ∧
    ok (ctMax freeScheme pc x y) ∧ ok (ctRelu freeScheme pc x) ∧ ok (ctRoundAt freeScheme pc x pos) ∧
    (x.length ≤ 1 → y.length ≤ 1 → ok (ctMul freeScheme pc x y)) ∧ (x.length ≤ 3 → ok (ctSqu freeScheme pc x)) ∧
    (Samples (x ++ y) → ok (ctMul freeScheme pc x y)) ∧ (Samples x → ok (ctSqu freeScheme pc x)) ∧
    (SampleOrZero (x ++ y) → max x.length y.length < 16 ∨ max x.length y.length = 17 → ok (ctMul freeScheme pc x y)) ∧
    (SampleOrZero x → x.length ≤ 5 → ok (ctSqu freeScheme pc x)) := by
  obtain ⟨a1, a2, a3, a4, a5, a6, a7, a8, a9, a10, a11⟩ := C39_independent_short h hq k pos
  have hx : Independent x := ⟨fun w hw => h.1 w (by simp [hw]), fun i j hi hj t e f =>
    h.2 i j (by simp; omega) (by simp; omega) t (by rwa [List.getElem_append_left hi]) (by rwa [List.getElem_append_left hj])⟩
  refine ⟨a1, a2, a3, a4, a5, a6, a7, a8, a9, a10, a11, fun hs => ?_, fun hs => ?_, fun hs hl => ?_, fun hs hl => ?_⟩
  · exact Boots.mono (C39_mul hp hs h) fun t ht => ht.trans (by omega)
  · exact Boots.mono (C39_squ hp hs hx) fun t ht => ht.trans (by omega)
  · exact Boots.mono (C39_mul_zeros hp.1 h (fun w hw => zero_of hp.1 (hs w hw)) hl) fun t ht => ht.trans (by omega)
  · exact Boots.mono (C39_squ_zeros hp hs hx hl) fun t ht => ht.trans (by omega)

/-- **C80.** A square of at most five words keeps within 21 even if equal ciphertexts count as one. -/
theorem C80_squ_zeros (h : Sized pc) (hs : SampleOrZero x) (hi : Independent x) (hl : x.length ≤ 5) :
    Boots (fun t => t.mergedWeight ≤ 21) (ctSqu freeScheme pc x) :=
  squ_zeros h hs hi hl fun ι => Term.mergedWeight_le_quad ι

/-- **C80.** Products of at most two words by at most two words keep within 20 wherever there are trivial zeros.  (Three words
do not: `C80_mul_shift_exceeds`.) -/
theorem C80_mul_zeros (h : Sized pc) (hs : SampleOrZero (x ++ y)) (hi : Independent (x ++ y)) (hl : x.length ≤ 2) (hk : y.length ≤ 2) :
    Boots (fun t => t.mergedWeight ≤ 20) (ctMul freeScheme pc x y) :=
  mul_zeros h hs hi hl hk fun ι => Term.mergedWeight_le_quad ι

/-- **C80.** Squares of six or more words can exceed the weight: those of which the upper half starts with two zeros, all other
words being encrypted. -/
theorem C80_squ_zeros_exceeds (h : Sized pc) (hx : ∀ w ∈ x, w.isTriv = false ∧ w.msgMod = 32)
    (hy : ∀ w ∈ y, w.isTriv = false ∧ w.msgMod = 32) (h1 : 3 ≤ x.length) (h2 : x.length ≤ 16) (h3 : y ≠ [])
    (h4 : y.length + 2 = x.length ∨ y.length + 3 = x.length) :
    ¬ Boots (fun t => t.mergedWeight ≤ 25) (ctSqu freeScheme pc (x ++ ctShift pc y 2)) := by
  intro hb
  have es : ctShift pc y 2 = encryptWordTriv Term pc 0 :: encryptWordTriv Term pc 0 :: y := by
    simp [ctShift, trivCt, List.replicate]
  have hl : (x ++ ctShift pc y 2).length = x.length + y.length + 2 := by rw [es]; simp; omega
  obtain ⟨z, k, hz, _⟩ := ctSqu_any (S := freeScheme) (x := x ++ ctShift pc y 2) ⟨h.1, h.2.1⟩ (fun w hw => by
    rw [es] at hw
    simp only [List.mem_append, List.mem_cons] at hw
    rcases hw with hw | rfl | rfl | hw
    · exact (hx w hw).2
    · exact h.1
    · exact h.1
    · exact (hy w hw).2) (by omega)
  obtain ⟨r, rep, _, e⟩ := hz (St.init .seq)
  have hmul := (Mg.heavier_shift h.1 mulFuel h1 (fun w hw => (hx w hw).1) h3 fun w hw => (hy w hw).1).call
  have key : Ensures (squImpl freeScheme pc mulFuel (x ++ ctShift pc y 2)) Mg.Heavier := by
    unfold squImpl
    refine Ensures.ite (fun h => absurd (hl.symm.trans h) (by omega)) fun _ =>
      Ensures.ite (fun h => absurd (hl.symm.trans h) (by omega)) fun _ =>
      Ensures.ite (fun h => absurd (hl ▸ h) (by omega)) fun _ => Ensures.ite (fun _ => ?_) fun _ => Ensures.err _
    show Ensures (squDnq freeScheme pc _ _) _
    unfold squDnq
    rw [show ((x ++ ctShift pc y 2).length + 1) / 2 = x.length by omega]
    dsimp only
    rw [List.take_left, List.drop_left]
    refine (Ensures.par3 (P := fun _ => True) (Q := fun _ => True) (R := Mg.Heavier) (Ensures.trivial _) (Ensures.trivial _) ?_).bind ?_
    · refine hmul.bind fun c hc => Ensures.pure ?_
      rw [ctShift, if_neg (by omega)]
      exact hc.append_right _
    · rintro ⟨a, b, c⟩ ⟨-, -, hc⟩
      exact Ensures.ite (fun _ => Mg.heavier_add (.inr hc)) fun _ =>
        (Mg.heavier_add (.inr hc)).bind fun bc hbc => Mg.heavier_add (.inr hbc)
  obtain ⟨u, ⟨w, hw, t, ht, hu⟩, e26⟩ := key.call _ _ _ e
  have := hb _ _ _ e w hw t ht u hu
  omega

/-! Cases of the hypotheses -/

private theorem enc_inputs (a n : Nat) : ∀ w ∈ inputs a n, w.isTriv = false ∧ w.msgMod = 32 := fun w hw => by
  simp only [inputs, List.mem_map] at hw; obtain ⟨i, _, rfl⟩ := hw; exact ⟨rfl, rfl⟩

/-- two samples and a zero between them and one below -/
private def holed : Ctxt Term := [⟨.triv 0, 32⟩, ⟨.ct (.input 0), 32⟩, ⟨.triv 0, 32⟩, ⟨.ct (.input 1), 32⟩]

example : Boots (fun t => t.mergedWeight ≤ 21) (ctSqu freeScheme unitCloud holed) := by
  refine C80_squ_zeros ⟨rfl, rfl, 64, by norm_num, rfl⟩ (fun w hw => ?_) ⟨fun w hw => ?_, fun i j hi hj t e f => ?_⟩ (by decide)
  · simp only [holed, List.mem_cons, List.not_mem_nil, or_false] at hw
    rcases hw with rfl | rfl | rfl | rfl
    · exact ⟨rfl, .inr rfl⟩
    · exact ⟨rfl, .inl ⟨_, rfl⟩⟩
    · exact ⟨rfl, .inr rfl⟩
    · exact ⟨rfl, .inl ⟨_, rfl⟩⟩
  · intro ht
    simp only [holed, List.mem_cons, List.not_mem_nil, or_false] at hw
    rcases hw with rfl | rfl | rfl | rfl
    · cases ht
    · exact ⟨_, rfl⟩
    · cases ht
    · exact ⟨_, rfl⟩
  · have hi' : i < 4 := hi
    have hj' : j < 4 := hj
    interval_cases i <;> interval_cases j <;> simp_all [holed] <;> exact absurd (e.trans f.symm) (by simp)

/-- six words -/
example : ¬ Boots (fun t => t.mergedWeight ≤ 25) (ctSqu freeScheme unitCloud (inputs 0 3 ++ ctShift unitCloud (inputs 3 1) 2)) :=
  C80_squ_zeros_exceeds ⟨rfl, rfl, 64, by norm_num, rfl⟩ (enc_inputs 0 3) (enc_inputs 3 1) (by decide) (by decide)
    (by simp [inputs]) (by decide)

end Parm
