import Verif.Proof.MergedOps
import Verif.Props.Weights

/-!
# Property C80 for the operations other than multiplication

The bounds of property C39 hold as well when equal ciphertexts are counted as one.
-/

namespace Parm
open Wt

variable {pc : Cloud} {x y : Ctxt Term}

private theorem boots_of {P : Term → Prop} {m : M (Ctxt Term)} (h : Ensures m (Past P)) : Boots P m :=
  fun s z s' e => Past.all (h s z s' e)

private theorem left (h : Independent (x ++ y)) : Independent x :=
  ⟨fun w hw => h.1 w (by simp [hw]), fun i j hi hj t e f =>
    h.2 i j (by simp; omega) (by simp; omega) t (by rwa [List.getElem_append_left hi]) (by rwa [List.getElem_append_left hj])⟩

/-- **C80**, addition and subtraction, with and without refresh: weight at most 20. -/
theorem C80_add (pc : Cloud) (h : Independent (x ++ y)) :
    Boots (fun t => t.mergedWeight ≤ 20) (ctAdd freeScheme pc x y) ∧
    Boots (fun t => t.mergedWeight ≤ 20) (ctSub freeScheme pc x y) ∧
    Boots (fun t => t.mergedWeight ≤ 20) (ctAddNoisy freeScheme pc x y) ∧
    Boots (fun t => t.mergedWeight ≤ 20) (ctSubNoisy freeScheme pc x y) := by
  obtain ⟨gx, gy, sxy⟩ := independent_apart h
  have key : ∀ isAdd refresh, Ensures (addSubImpl freeScheme isAdd pc x y refresh) (Past fun t => t.mergedWeight ≤ 20) :=
    fun isAdd refresh => (Mg.addSub_merged (fun _ h => h) pc isAdd refresh gx gy sxy
      (past_iff.2 fun w hw => past_iff.1 (independent_past h) w (by simp [hw]))
      (past_iff.2 fun w hw => past_iff.1 (independent_past h) w (by simp [hw]))).mono fun _ h => h.1
  exact ⟨boots_of (key _ _).call, boots_of (key _ _).call, boots_of (key _ _).call, boots_of (key _ _).call⟩

/-- **C80**, addition of a constant: weight at most 10. -/
theorem C80_add_const (pc : Cloud) (h : Independent x) (k : Int) :
    Boots (fun t => t.mergedWeight ≤ 10) (ctAddConst freeScheme pc x k) :=
  boots_of (Mg.addConst_merged (fun _ h => h) (independent_gen h) (independent_past h) k).call

/-- **C80**, sign: weight at most 85 where the code checks that 85 is allowed, at most 22 otherwise. -/
theorem C80_sgn (pc : Cloud) (h : Independent x) :
    Boots (fun t => t.mergedWeight ≤ if 85 ≤ pc.params.quadWeight then 85 else 22) (ctSgn freeScheme pc x) :=
  boots_of ((Mg.sgn_merged (fun _ h => h) (independent_past h) (independent_gen h)).call.mono fun _ h => h.1)

/-- **C80**, rounding: as for the sign. -/
theorem C80_round_at (pc : Cloud) (h : Independent x) (pos : Nat) :
    Boots (fun t => t.mergedWeight ≤ if 85 ≤ pc.params.quadWeight then 85 else 22) (ctRoundAt freeScheme pc x pos) :=
  boots_of ((Mg.round_merged (fun _ h => h) (independent_gen h) (independent_past h) pos).call.mono fun _ h => h.1)

/-- **C80**, maximum: the sign's 85, the selection's 41, each behind the check of the code; at most 22 otherwise. -/
theorem C80_max (pc : Cloud) (h : Independent (x ++ y)) :
    Boots (fun t => t.mergedWeight ≤ if 85 ≤ pc.params.quadWeight then 85 else if 41 ≤ pc.params.quadWeight then 41 else 22)
      (ctMax freeScheme pc x y) := by
  obtain ⟨gx, gy, sxy⟩ := independent_apart h
  exact boots_of ((Mg.max_merged (fun _ h => h) gx gy sxy
      (past_iff.2 fun w hw => past_iff.1 (independent_past h) w (by simp [hw]))
      (past_iff.2 fun w hw => past_iff.1 (independent_past h) w (by simp [hw]))).call.mono fun _ h => h.1)

/-- **C80**, ReLU -/
theorem C80_relu (pc : Cloud) (h : Independent x) :
    Boots (fun t => t.mergedWeight ≤ if 85 ≤ pc.params.quadWeight then 85 else if 41 ≤ pc.params.quadWeight then 41 else 22)
      (ctRelu freeScheme pc x) :=
  boots_of ((Mg.max_merged (fun _ h => h) gen_nil (independent_gen h) apart_nil past_nil (independent_past h)).call.mono
    fun _ h => h.1)

/-- **C80.** With any `quad_weight` the constructor accepts (at least 22), no combination of ciphertexts of a higher quadratic
weight is bootstrapped by these operations on independent operands. -/
theorem C80_independent (h : Independent (x ++ y)) (hq : 22 ≤ pc.params.quadWeight) (k : Int) (pos : Nat) :
    let ok := Boots fun t => t.mergedWeight ≤ pc.params.quadWeight
    ok (ctAdd freeScheme pc x y) ∧ ok (ctSub freeScheme pc x y) ∧ ok (ctAddNoisy freeScheme pc x y) ∧
    ok (ctSubNoisy freeScheme pc x y) ∧ ok (ctAddConst freeScheme pc x k) ∧ ok (ctSgn freeScheme pc x) ∧
    ok (ctMax freeScheme pc x y) ∧ ok (ctRelu freeScheme pc x) ∧ ok (ctRoundAt freeScheme pc x pos) := by
  have up : ∀ {B : Nat}, B ≤ pc.params.quadWeight → ∀ t : Term, t.mergedWeight ≤ B → t.mergedWeight ≤ pc.params.quadWeight :=
    fun hB t ht => ht.trans hB
  have g85 : (if 85 ≤ pc.params.quadWeight then 85 else 22) ≤ pc.params.quadWeight := by split <;> omega
  have g41 : (if 85 ≤ pc.params.quadWeight then 85 else if 41 ≤ pc.params.quadWeight then 41 else 22) ≤ pc.params.quadWeight := by
    split
    · assumption
    · split <;> omega
  obtain ⟨a1, a2, a3, a4⟩ := C80_add pc h
  exact ⟨a1.mono (up (by omega)), a2.mono (up (by omega)), a3.mono (up (by omega)), a4.mono (up (by omega)),
    (C80_add_const pc (left h) k).mono (up (by omega)), (C80_sgn pc (left h)).mono (up g85), (C80_max pc h).mono (up g41),
    (C80_relu pc (left h)).mono (up g41), (C80_round_at pc (left h) pos).mono (up g85)⟩

/-- **C80.** No program bootstraps a combination of ciphertexts of a quadratic weight above 64, 81 or 225 (according to
`quad_weight`): not even with the same sample used many times, and whichever ciphertexts are equal. -/
theorem C80_programs {S : Scheme} {ck : ClientKey S} {B D : Nat} (st : Setting S ck pc B D) (p : List Instr)
    {xs : List (Ctxt Term)} (hx : ∀ x ∈ xs, WellFormed x ∧ ∀ w ∈ x, w.isTriv = false → ∃ i, w.ct = .ct (.input i))
    {s s' : St} {zs : List (Ctxt Term)} (h : runProg (arithCt freeScheme pc) p xs s = .ok (zs, s')) :
    ∀ z ∈ zs, AllBooted (fun t => t.mergedWeight ≤ tolWeight pc.params.quadWeight ^ 2) z := by
  intro z hz w hw t e u hu
  refine Mg.merged_L1 fun F => ?_
  refine le_trans ?_ (C39_programs_linear st p hx h z hz w hw t e u hu)
  classical
  unfold Term.linWeight
  rw [← Finset.sum_filter_add_sum_filter_not F (fun a => a ∈ u.samples)]
  rw [Finset.sum_eq_zero (s := F.filter fun a => a ∉ u.samples) fun a ha => by
    by_contra hc
    exact (Finset.mem_filter.1 ha).2 (Mg.isSample_of_mult fun h0 => hc (by rw [h0]; rfl)), add_zero]
  exact Finset.sum_le_sum_of_subset fun a ha => (Finset.mem_filter.1 ha).2

/-! Cases of the hypotheses -/

example : Boots (fun t => t.mergedWeight ≤ 22) (ctMax freeScheme (cloudQ 22) (inputs 0 7) (inputs 7 12)) :=
  C80_max (cloudQ 22) (inputs_independent 0 7 7 12 (by norm_num))

end Parm
