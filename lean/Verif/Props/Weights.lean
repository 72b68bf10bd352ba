import Verif.Proof.WeightsProg
import Verif.Props.ScalarMul
import Mathlib.Data.Nat.Pairing

/-!
# Weights of the words that are bootstrapped: property C39

`Boots P m`: every word that is bootstrapped on the way to the result of `m` satisfies `P`.  The
operations run here on terms (`freeScheme`); `C39_faithful` and `C39_programs_linear` carry this over
to any scheme.
-/

namespace Parm

open Wt

variable {x y : Ctxt Term} {pc : Cloud}

private theorem boots_of {P : Term → Prop} {m : M (Ctxt Term)} (h : Ensures m (Past P)) : Boots P m :=
  fun s z s' e => (h s z s' e).all

theorem Boots.mono {P Q : Term → Prop} {m : M (Ctxt Term)} (h : Boots P m) (hi : ∀ t, P t → Q t) : Boots Q m :=
  fun s z s' e w hw t et u hu => hi u (h s z s' e w hw t et u hu)

private theorem wt {B : Nat} : ∀ t : Term, Q2 t.mult B → t.quadWeight ≤ B := fun _ h => Term.quadWeight_le h

/-! ### Independent operands -/

/-- **C39**, addition and subtraction, with and without refreshing: weight at most 20. -/
theorem C39_add (pc : Cloud) (h : Independent (x ++ y)) :
    Boots (fun t => t.quadWeight ≤ 20) (ctAdd freeScheme pc x y) ∧
    Boots (fun t => t.quadWeight ≤ 20) (ctSub freeScheme pc x y) ∧
    Boots (fun t => t.quadWeight ≤ 20) (ctAddNoisy freeScheme pc x y) ∧
    Boots (fun t => t.quadWeight ≤ 20) (ctSubNoisy freeScheme pc x y) := by
  obtain ⟨gx, gy, sxy⟩ := independent_apart h
  have key : ∀ isAdd refresh, Ensures (addSubImpl freeScheme isAdd pc x y refresh) (Past fun t => t.quadWeight ≤ 20) :=
    fun isAdd refresh => addSub_gen20 wt pc isAdd refresh gx gy sxy
      (past_iff.2 fun w hw => past_iff.1 (independent_past h) w (by simp [hw]))
      (past_iff.2 fun w hw => past_iff.1 (independent_past h) w (by simp [hw]))
  exact ⟨boots_of (key _ _).call, boots_of (key _ _).call, boots_of (key _ _).call, boots_of (key _ _).call⟩

/-- **C39**, addition of a constant: weight at most 10. -/
theorem C39_add_const (pc : Cloud) (h : Independent x) (k : Int) :
    Boots (fun t => t.quadWeight ≤ 10) (ctAddConst freeScheme pc x k) :=
  boots_of ((addConst_gen wt (independent_gen h) (independent_past h) k).call.mono
    fun _ h => h.1)

/-- **C39**, sign: weight at most 85 where the code checks that 85 is allowed, at most 22 otherwise. -/
theorem C39_sgn (pc : Cloud) (h : Independent x) :
    Boots (fun t => t.quadWeight ≤ if 85 ≤ pc.params.quadWeight then 85 else 22) (ctSgn freeScheme pc x) :=
  boots_of ((sgn_gen wt (independent_past h) (independent_gen h).fresh (independent_gen h).sep
    (independent_gen h).noChild).call.mono fun _ h => h.1)

/-- **C39**, rounding: as for the sign. -/
theorem C39_round_at (pc : Cloud) (h : Independent x) (pos : Nat) :
    Boots (fun t => t.quadWeight ≤ if 85 ≤ pc.params.quadWeight then 85 else 22) (ctRoundAt freeScheme pc x pos) :=
  boots_of ((round_gen wt (independent_gen h) (independent_past h) pos).call.mono fun _ h => h.1)

/-- **C39**, maximum: the sign's 85, the selection's 41, each behind the check of the code; at most 22
otherwise. -/
theorem C39_max (pc : Cloud) (h : Independent (x ++ y)) :
    Boots (fun t => t.quadWeight ≤ if 85 ≤ pc.params.quadWeight then 85 else if 41 ≤ pc.params.quadWeight then 41 else 22)
      (ctMax freeScheme pc x y) := by
  obtain ⟨gx, gy, sxy⟩ := independent_apart h
  exact boots_of ((max_gen wt gx gy sxy
      (past_iff.2 fun w hw => past_iff.1 (independent_past h) w (by simp [hw]))
      (past_iff.2 fun w hw => past_iff.1 (independent_past h) w (by simp [hw]))).call.mono fun _ h => h.1)

/-- **C39**, ReLU -/
theorem C39_relu (pc : Cloud) (h : Independent x) :
    Boots (fun t => t.quadWeight ≤ if 85 ≤ pc.params.quadWeight then 85 else if 41 ≤ pc.params.quadWeight then 41 else 22)
      (ctRelu freeScheme pc x) :=
  boots_of ((max_gen wt gen_nil (independent_gen h) apart_nil past_nil (independent_past h)).call.mono fun _ h => h.1)

/-- **C39**, multiplication of single words: weight at most 10. -/
theorem C39_mul_one_word (pc : Cloud) (h : Independent (x ++ y)) (hx : x.length ≤ 1) (hy : y.length ≤ 1) :
    Boots (fun t => t.quadWeight ≤ 10) (ctMul freeScheme pc x y) := by
  obtain ⟨gx, gy, sxy⟩ := independent_apart h
  refine boots_of (Ensures.call ?_)
  unfold mulImpl
  refine Ensures.ite (fun _ => Ensures.pure past_nil) fun h0 => Ensures.ite (fun _ => ?_) fun h1 => by
    simp only [List.length_append, List.length_replicate] at h0 h1; omega
  refine mul1_gen wt (fun i => ?_) (fun i => ?_) (fun i j => ?_) (fun i => ?_) fun i => ?_
  · rw [(wd_pad x _ i).1]; exact gx.fresh i
  · rw [(wd_pad y _ i).1]; exact gy.fresh i
  · rw [(wd_pad x _ i).1, (wd_pad y _ j).1]; exact sxy i j
  · exact (wd_pad x _ i).2 _ (past_iff.2 (fun w hw => past_iff.1 (independent_past h) w (by simp [hw])) i)
  · exact (wd_pad y _ i).2 _ (past_iff.2 (fun w hw => past_iff.1 (independent_past h) w (by simp [hw])) i)

/-- **C39**, squaring of up to three words: weight at most 21. -/
theorem C39_squ_short (pc : Cloud) (h : Independent x) (hx : x.length ≤ 3) :
    Boots (fun t => t.quadWeight ≤ 21) (ctSqu freeScheme pc x) := by
  refine boots_of (Ensures.call ?_)
  unfold squImpl
  refine Ensures.ite (fun _ => Ensures.pure past_nil) fun h0 => Ensures.ite (fun _ =>
    squ1_gen wt (independent_gen h).fresh (independent_past h)) fun h1 => Ensures.ite (fun _ =>
    squ23_gen wt (independent_gen h).fresh (independent_gen h).sep (independent_past h)) fun h2 => by omega

/-- **C39.** With any `quad_weight` the constructor accepts (at least 22), no word of a higher quadratic
weight is bootstrapped by these operations on independent operands.  (Longer products and squares are in
`C39_independent_partial`.) -/
theorem C39_independent_short (h : Independent (x ++ y)) (hq : 22 ≤ pc.params.quadWeight) (k : Int) (pos : Nat) :
    let ok := Boots fun t => t.quadWeight ≤ pc.params.quadWeight
    ok (ctAdd freeScheme pc x y) ∧ ok (ctSub freeScheme pc x y) ∧ ok (ctAddNoisy freeScheme pc x y) ∧
    ok (ctSubNoisy freeScheme pc x y) ∧ ok (ctAddConst freeScheme pc x k) ∧ ok (ctSgn freeScheme pc x) ∧
    ok (ctMax freeScheme pc x y) ∧ ok (ctRelu freeScheme pc x) ∧ ok (ctRoundAt freeScheme pc x pos) ∧
    (x.length ≤ 1 → y.length ≤ 1 → ok (ctMul freeScheme pc x y)) ∧ (x.length ≤ 3 → ok (ctSqu freeScheme pc x)) := by
  have hx : Independent x := ⟨fun w hw => h.1 w (by simp [hw]), fun i j hi hj t e f =>
    h.2 i j (by simp; omega) (by simp; omega) t (by rwa [List.getElem_append_left hi]) (by rwa [List.getElem_append_left hj])⟩
  have up : ∀ {B : Nat}, B ≤ pc.params.quadWeight → ∀ t : Term, t.quadWeight ≤ B → t.quadWeight ≤ pc.params.quadWeight :=
    fun hB t ht => ht.trans hB
  have g85 : (if 85 ≤ pc.params.quadWeight then 85 else 22) ≤ pc.params.quadWeight := by split <;> omega
  have g41 : (if 85 ≤ pc.params.quadWeight then 85 else if 41 ≤ pc.params.quadWeight then 41 else 22) ≤ pc.params.quadWeight := by
    split
    · assumption
    · split <;> omega
  obtain ⟨a1, a2, a3, a4⟩ := C39_add pc h
  exact ⟨a1.mono (up (by omega)), a2.mono (up (by omega)), a3.mono (up (by omega)), a4.mono (up (by omega)),
    (C39_add_const pc hx k).mono (up (by omega)), (C39_sgn pc hx).mono (up g85), (C39_max pc h).mono (up g41),
    (C39_relu pc hx).mono (up g41), (C39_round_at pc hx pos).mono (up g85),
    fun h1 h2 => (C39_mul_one_word pc h h1 h2).mono (up (by omega)), fun h1 => (C39_squ_short pc hx h1).mono (up (by omega))⟩

/-! ### Arbitrary programs -/

/-- the value of a word of terms -/
def Word.eval (S : Scheme) (ρ : Nat → S.C) (w : Word Term) : Word S.C :=
  match w.ct with
  | .ct t => ⟨.ct (t.eval S ρ), w.msgMod⟩
  | .triv p => ⟨.triv p, w.msgMod⟩

theorem evalRel (S : Scheme) (ρ : Nat → S.C) : SchemeRel freeScheme S fun t c => c = t.eval S ρ where
  add h g := by rw [h, g]; rfl
  neg h := by rw [h]; rfl
  mulC k h := by rw [h]; rfl
  addPt p h := by rw [h]; rfl
  pbs acc h := by rw [h]; rfl

private theorem crel_eval {S : Scheme} {ρ : Nat → S.C} {x : Ctxt Term} {x' : Ctxt S.C} :
    CRel (fun t c => c = t.eval S ρ) x x' ↔ x' = x.map (Word.eval S ρ) := by
  constructor
  · intro h
    induction h with
    | nil => rfl
    | cons h _ ih => rw [List.map_cons, ← ih]; cases h with
      | ct m e => rw [e]; rfl
      | triv p m => rfl
  · rintro rfl
    induction x with
    | nil => exact .nil
    | cons w x ih =>
      refine .cons ?_ ih
      obtain ⟨c | p, m⟩ := w
      · exact .ct m rfl
      · exact .triv p m

/-- **C39.** Programs on terms describe programs on ciphertexts of any scheme: if the latter returns, so
does the former, and the value of its result is the latter's result. -/
theorem C39_faithful {S : Scheme} (ρ : Nat → S.C) (pc : Cloud) (p : List Instr) (xs : List (Ctxt Term)) {s s' : St}
    {zs : List (Ctxt S.C)} (h : runProg (arithCt S pc) p (xs.map (List.map (Word.eval S ρ))) s = .ok (zs, s')) :
    ∃ ts t', runProg (arithCt freeScheme pc) p xs s = .ok (ts, t') ∧ zs = ts.map (List.map (Word.eval S ρ)) := by
  have hx : List.Forall₂ (CRel fun t c => c = t.eval S ρ) xs (xs.map (List.map (Word.eval S ρ))) := by
    rw [List.forall₂_map_right_iff, List.forall₂_same]
    exact fun x _ => crel_eval.2 rfl
  rcases ((evalRel S ρ).arithCt pc).prog p hx with ⟨a, a', n, h1, h2, h3, _⟩ | ⟨_, h2⟩
  · obtain ⟨r1, p1, _, e1⟩ := h1 s
    obtain ⟨r2, p2, _, e2⟩ := h2 s
    rw [e2] at h
    cases h
    refine ⟨a, _, e1, ?_⟩
    clear e1 e2 h1 h2 hx
    induction h3 with
    | nil => rfl
    | cons g _ ih => rw [List.map_cons, ← ih, crel_eval.1 g]
  · obtain ⟨f, hf⟩ := h2 s
    rw [hf] at h; cases h

/-- **C39.** No program bootstraps a word of a linear weight above 8, 9 or 15 (according to
`quad_weight`): not even with the same sample used many times, and for all inputs whose encrypted words
are fresh samples and whose trivial words are digits. -/
theorem C39_programs_linear {S : Scheme} {ck : ClientKey S} {B D : Nat} (st : Setting S ck pc B D) (p : List Instr)
    {xs : List (Ctxt Term)} (hx : ∀ x ∈ xs, WellFormed x ∧ ∀ w ∈ x, w.isTriv = false → ∃ i, w.ct = .ct (.input i))
    {s s' : St} {zs : List (Ctxt Term)} (h : runProg (arithCt freeScheme pc) p xs s = .ok (zs, s')) :
    ∀ z ∈ zs, AllBooted (fun t => t.linWeight ≤ tolWeight pc.params.quadWeight) z := by
  have hg : ∀ x ∈ xs, Good (fun t => t.linWeight ≤ tolWeight pc.params.quadWeight) x := by
    intro x hm
    obtain ⟨hw, hi⟩ := hx x hm
    rw [good_iff]
    intro w hw'
    refine ⟨?_, ?_, hw w hw'⟩
    · cases ht : w.isTriv with
      | true => rw [wm_triv ht]; exact One.zero
      | false =>
        obtain ⟨k, e⟩ := hi w hw' ht
        rw [wm_ct e]
        exact ⟨.input k, by simp [Term.mult], fun b hb => by simp [Term.mult, hb]⟩
    · intro t e
      obtain ⟨k, e'⟩ := hi w hw' (not_triv_of_ct e)
      rw [e] at e'
      injection e' with e'
      subst e'
      intro u hu
      simp [Term.booted] at hu
  exact fun z hz => (good_prog st (fun t ht => Term.linWeight_le ht) p hg s zs s' h z hz).past.all

/-- the ciphertext whose encrypted words are the samples `(a, 0)`, `(a, 1)`, … -/
def named {C : Type} (a : Nat) (x : Ctxt C) : Ctxt Term :=
  x.zipIdx.map fun e => match e.1.ct with
    | .ct _ => ⟨.ct (.input (Nat.pair a e.2)), e.1.msgMod⟩
    | .triv p => ⟨.triv p, e.1.msgMod⟩

/-- **C39** for any scheme: a program that returns on valid ciphertexts computes the values of terms over
the words it was given, in which no word of a linear weight above 8, 9 or 15 is bootstrapped. -/
theorem C39_programs_real {S : Scheme} {ck : ClientKey S} {B D : Nat} (st : Setting S ck pc B D) (p : List Instr)
    {xs : List (Ctxt S.C)} (hx : ∀ x ∈ xs, ∃ v, Valid ck B x v) {s s' : St} {zs : List (Ctxt S.C)}
    (h : runProg (arithCt S pc) p xs s = .ok (zs, s')) :
    ∃ (ρ : Nat → S.C) (ts : List (Ctxt Term)), (∀ a j (ha : a < xs.length) (hj : j < xs[a].length) c,
        xs[a][j].ct = .ct c → ρ (Nat.pair a j) = c) ∧
      zs = ts.map (List.map (Word.eval S ρ)) ∧
      ∀ t ∈ ts, AllBooted (fun u => u.linWeight ≤ tolWeight pc.params.quadWeight) t := by
  let pick : Nat → Option S.C := fun n =>
    match xs[n.unpair.1]? with
    | none => none
    | some x => match x[n.unpair.2]? with
      | some ⟨.ct c, _⟩ => some c
      | _ => none
  let ρ : Nat → S.C := fun n => (pick n).getD (ck.encrypt 0 0)
  have hρ : ∀ a j (ha : a < xs.length) (hj : j < xs[a].length) c, xs[a][j].ct = .ct c → ρ (Nat.pair a j) = c := by
    intro a j ha hj c e
    simp only [ρ, pick, Nat.unpair_pair, List.getElem?_eq_getElem ha, List.getElem?_eq_getElem hj]
    generalize xs[a][j] = w at e
    obtain ⟨w, m⟩ := w
    simp only at e
    subst e
    rfl
  let ts : List (Ctxt Term) := xs.zipIdx.map fun e => named e.2 e.1
  have hlen : ts.length = xs.length := by simp [ts]
  have hts : ∀ a (ha : a < xs.length), ts[a]'(by omega) = named a xs[a] := by
    intro a ha; simp [ts]
  have hev : ts.map (List.map (Word.eval S ρ)) = xs := by
    refine List.ext_getElem (by simpa using hlen) fun a h1 h2 => ?_
    rw [List.getElem_map, hts a h2]
    refine List.ext_getElem (by simp [named]) fun j h3 h4 => ?_
    have hr := hρ a j h2 h4
    simp only [named, List.getElem_map, List.getElem_zipIdx, Nat.zero_add]
    generalize xs[a][j] = w at hr
    obtain ⟨c | p, m⟩ := w
    · simp only [Word.eval, Term.eval]; rw [hr c rfl]
    · rfl
  rw [← hev] at h
  obtain ⟨rs, t', h1, h2⟩ := C39_faithful ρ pc p ts h
  refine ⟨ρ, rs, hρ, h2, C39_programs_linear st p ?_ h1⟩
  intro x hm
  obtain ⟨a, ha, rfl⟩ := List.mem_iff_getElem.1 hm
  rw [hts a (by omega)]
  obtain ⟨v, d, hd, _⟩ := hx _ (List.getElem_mem (l := xs) (n := a) (by omega))
  have key : ∀ j (hj : j < (named a (xs[a]'(by omega))).length), ((named a (xs[a]'(by omega)))[j].msgMod = 32 ∧
      ∀ p, (named a (xs[a]'(by omega)))[j].ct = .triv p → ∃ d : Int, (d = -1 ∨ d = 0 ∨ d = 1) ∧ p = BitVec.ofInt 64 (d * 2 ^ 59)) ∧
      ((named a (xs[a]'(by omega)))[j].isTriv = false → ∃ i, (named a (xs[a]'(by omega)))[j].ct = .ct (.input i)) := by
    intro j hj
    obtain ⟨⟨h1, h2⟩, h3⟩ := hd j (by simpa [named] using hj)
    simp only [named, List.getElem_map, List.getElem_zipIdx, Nat.zero_add]
    generalize (xs[a]'(by omega))[j]'_ = w at h1 h2
    obtain ⟨c | p, m⟩ := w
    · exact ⟨⟨h1, fun p e => by cases e⟩, fun _ => ⟨_, rfl⟩⟩
    · refine ⟨⟨h1, fun p' e => ⟨d j, h3, ?_⟩⟩, fun e => by cases e⟩
      cases e
      exact h2
  refine ⟨fun w hw => ?_, fun w hw => ?_⟩
  · obtain ⟨j, hj, rfl⟩ := List.mem_iff_getElem.1 hw
    exact (key j hj).1
  · obtain ⟨j, hj, rfl⟩ := List.mem_iff_getElem.1 hw
    exact (key j hj).2

/-! ### Where the bounds are met, and where they are exceeded -/

/-- encrypted words numbered from `a` -/
def inputs (a n : Nat) : Ctxt Term := (List.range n).map fun i => ⟨.ct (.input (a + i)), 32⟩

theorem inputs_independent (a n b m : Nat) (h : a + n ≤ b) : Independent (inputs a n ++ inputs b m) := by
  refine ⟨fun w hw _ => ?_, fun i j hi hj t e f => ?_⟩
  · simp only [inputs, List.mem_append, List.mem_map] at hw
    rcases hw with ⟨i, _, rfl⟩ | ⟨i, _, rfl⟩ <;> exact ⟨_, rfl⟩
  · have key : ∀ i (hi : i < (inputs a n ++ inputs b m).length), (inputs a n ++ inputs b m)[i].ct =
        .ct (.input (if i < n then a + i else b + (i - n))) := by
      intro i hi
      by_cases h : i < n
      · rw [List.getElem_append_left (by simpa [inputs] using h), if_pos h]; simp [inputs]
      · rw [List.getElem_append_right (by simpa [inputs] using h), if_neg h]; simp [inputs]
    rw [key i hi] at e
    rw [key j hj, ← e] at f
    injection f with f
    injection f with f
    split at f <;> split at f <;> omega

/-- the quadratic and linear weights of all words bootstrapped for the result (none if there is no result) -/
def weightsOf (m : M (Ctxt Term)) : List (Nat × Nat) :=
  match m (St.init Sched.seq) with
  | .ok (z, _) => z.flatMap fun w => match w.ct with
    | .ct t => t.booted.map fun u => (u.quadWeight, u.linWeight)
    | .triv _ => []
  | .error _ => []

/-- the demo cloud with another `quad_weight` -/
def cloudQ (q : Nat) : Cloud := { Demo.cloud12 with params := { Params.M4C0 with quadWeight := q } }

theorem Boots.weights {P : Term → Prop} {m : M (Ctxt Term)} (h : Boots P m) :
    ∀ e ∈ weightsOf m, ∃ t, P t ∧ e = (t.quadWeight, t.linWeight) := by
  intro e he
  unfold weightsOf at he
  split at he
  · rename_i z s' hz
    rw [List.mem_flatMap] at he
    obtain ⟨w, hw, he⟩ := he
    split at he
    · rename_i t et
      rw [List.mem_map] at he
      obtain ⟨u, hu, rfl⟩ := he
      exact ⟨u, h _ _ _ hz w hw t et u hu, rfl⟩
    · cases he
  · cases he

/-- The bounds of C39 are met: 20 by addition, 21 by squaring, 22 and 85 by the sign, 41 by the maximum;
the linear bounds 8, 9 and 15 too. -/
theorem C39_bounds_met :
    (20, 8) ∈ weightsOf (ctAdd freeScheme (cloudQ 22) (inputs 0 3) (inputs 3 3)) ∧
    (21, 7) ∈ weightsOf (ctSqu freeScheme (cloudQ 22) (inputs 0 3)) ∧
    (22, 8) ∈ weightsOf (ctSgn freeScheme (cloudQ 22) (inputs 0 8)) ∧
    (41, 9) ∈ weightsOf (ctMax freeScheme (cloudQ 41) (inputs 0 1) (inputs 1 1)) ∧
    (85, 15) ∈ weightsOf (ctSgn freeScheme (cloudQ 85) (inputs 0 8)) ∧
    (10, 4) ∈ weightsOf (ctAddConst freeScheme (cloudQ 22) (inputs 0 3) 5) :=
  ⟨List.mem_of_getElem? (i := 3) (by decide +kernel), List.mem_of_getElem? (i := 0) (by decide +kernel),
    List.mem_of_getElem? (i := 1) (by decide +kernel), List.mem_of_getElem? (i := 0) (by decide +kernel),
    List.mem_of_getElem? (i := 1) (by decide +kernel), List.mem_of_getElem? (i := 3) (by decide +kernel)⟩

/-- **C39** fails for dependent operands: `add(x, x)` bootstraps a word of weight 40. -/
theorem C39_add_dependent :
    ¬ Boots (fun t => t.quadWeight ≤ 39) (ctAdd freeScheme (cloudQ 22) (inputs 0 3) (inputs 0 3)) := by
  intro h
  obtain ⟨t, ht, e⟩ := h.weights (40, 8) (List.mem_of_getElem? (i := 3) (by decide +kernel))
  simp only [Prod.mk.injEq] at e
  omega

/-- **C39** fails for `scalar_mul`, which adds shifted copies of its operand: `3·x` bootstraps a word of
weight 26, more than the 22 to 25 that the constructor accepts. -/
theorem C39_scalar_mul_exceeds :
    ¬ Boots (fun t => t.quadWeight ≤ 25) (ctScalarMul freeScheme (cloudQ 22) 3 (inputs 0 3)) ∧
    ¬ Boots (fun t => t.quadWeight ≤ 25) (ctScalarMul freeScheme (cloudQ 25) 3 (inputs 0 3)) := by
  constructor <;>
  · intro h
    obtain ⟨t, ht, e⟩ := h.weights (26, 8) (List.mem_of_getElem? (i := 3) (by decide +kernel))
    simp only [Prod.mk.injEq] at e
    omega

/-- **C39** fails for products with a trivial factor 3 = `[1, 1]`, for the same reason. -/
theorem C39_mul_trivial_exceeds :
    ¬ Boots (fun t => t.quadWeight ≤ 25)
      (ctMul freeScheme (cloudQ 22) (inputs 0 3) [encryptWordTriv Term (cloudQ 22) 1, encryptWordTriv Term (cloudQ 22) 1]) := by
  intro h
  obtain ⟨t, ht, e⟩ := h.weights (26, 8) (List.mem_of_getElem? (i := 4) (by decide +kernel))
  simp only [Prod.mk.injEq] at e
  omega

/-! Cases of the hypotheses -/

example : Boots (fun t => t.quadWeight ≤ 20) (ctAdd freeScheme Demo.cloud (inputs 0 3) (inputs 3 5)) :=
  (C39_add _ (inputs_independent 0 3 3 5 (by norm_num))).1

example {s s' : St} {zs : List (Ctxt Demo.scheme.C)} (h : runProg (arithCt Demo.scheme Demo.cloud12)
    [.add 0 0, .mul 2 1, .scalarMul 3 3, .max 4 0] [Demo.encVec [1, 0, 1], Demo.encVec [0, 1, 0, -1]] s = .ok (zs, s')) :
    ∃ (ρ : Nat → Demo.scheme.C) (ts : List (Ctxt Term)), zs = ts.map (List.map (Word.eval Demo.scheme ρ)) ∧
      ∀ t ∈ ts, AllBooted (fun u => u.linWeight ≤ 15) t := by
  obtain ⟨ρ, ts, _, h1, h2⟩ := C39_programs_real Demo.st12 _ (by
    intro x hx
    simp only [List.mem_cons, List.not_mem_nil, or_false] at hx
    rcases hx with rfl | rfl
    · exact ⟨_, Demo.valid5⟩
    · exact ⟨_, Demo.validm6⟩) h
  exact ⟨ρ, ts, h1, h2⟩

end Parm
