import Verif.Proof.NN
import Verif.Proof.Multiplication

/-!
# Programs over the arithmetic interface
-/

namespace Parm

theorem lt_two_pow_bits (k : Nat) : k < 2 ^ bits k := by
  unfold bits
  split_ifs with h
  · subst h; norm_num
  · exact Nat.lt_log2_self

theorem squLen_mono_aux : ∀ b, b < 33 → ∀ a, a < 33 → a ≤ b → squLen a ≤ squLen b := by decide

theorem squLen_mono {a b : Nat} (h : a ≤ b) (hb : b ≤ 32) : squLen a ≤ squLen b :=
  squLen_mono_aux b (by omega) a (by omega) h

section
variable {S : Scheme} {ck : ClientKey S} {pc : Cloud} {B D : Nat}

theorem arithCt_scalarMul (k : Int) (x : Ctxt S.C) :
    (arithCt S pc).scalarMul k x = ctScalarMul S pc k x := by
  unfold arithCt
  simp only

/-- the registers hold valid ciphertexts of `vs`, of at most `ls` words -/
def RegsOk (ck : ClientKey S) (B : Nat) (xs : List (Ctxt S.C)) (vs : List Int) (ls : List Nat) : Prop :=
  vs.length = xs.length ∧ ls.length = xs.length ∧
    ∀ i (h : i < xs.length), Valid ck B xs[i] (vs.getD i 0) ∧ xs[i].length ≤ ls.getD i 0

theorem RegsOk.snoc {xs : List (Ctxt S.C)} {vs : List Int} {ls : List Nat} (h : RegsOk ck B xs vs ls)
    {z : Ctxt S.C} {v : Int} {l : Nat} (hz : Valid ck B z v) (hl : z.length ≤ l) :
    RegsOk ck B (xs ++ [z]) (vs ++ [v]) (ls ++ [l]) := by
  obtain ⟨h1, h2, h3⟩ := h
  refine ⟨by simp [h1], by simp [h2], fun i hi => ?_⟩
  by_cases hx : i < xs.length
  · rw [List.getElem_append_left hx, List.getD_append _ _ _ _ (by omega),
      List.getD_append _ _ _ _ (by omega)]
    exact h3 i hx
  · have : i = xs.length := by simp at hi; omega
    subst this
    rw [List.getElem_concat_length rfl]
    have e1 : (vs ++ [v]).getD xs.length 0 = v := by
      rw [← h1]; simp [List.getD_eq_getElem?_getD]
    have e2 : (ls ++ [l]).getD xs.length 0 = l := by
      rw [← h2]; simp [List.getD_eq_getElem?_getD]
    rw [e1, e2]
    exact ⟨hz, hl⟩

theorem Yields.idxBind {α β : Type} {l : List α} {i : Nat} (h : i < l.length) {f : α → M β} {P : β → Prop}
    (hf : Yields (f l[i]) P) : Yields (idx l i >>= f) P :=
  Yields.bind ((Returns.idx h).yields rfl) (by rintro _ rfl; exact hf)

/-- one instruction, no length restriction needed except for factors -/
theorem Instr.run_valid (st : Setting S ck pc B D) {xs : List (Ctxt S.C)} {vs : List Int} {ls : List Nat}
    (h : RegsOk ck B xs vs ls) (ins : Instr)
    (hsc : ∀ k i, ins = .scalarMul k i → pc.build = .release ∧ TableOk pc.asc)
    (hwf : ins.wf xs.length) {l : Nat} (hl : ins.len ls = some l) :
    Yields (ins.run (arithCt S pc) xs) (fun z => Valid ck B z (ins.val vs) ∧ z.length ≤ l) := by
  obtain ⟨_, _, h3⟩ := h
  cases ins <;> simp only [Instr.wf] at hwf <;>
    simp only [Instr.len, Option.some.injEq] at hl <;>
    simp only [Instr.val, Instr.run]
  case zero => exact Yields.pure ⟨Valid.nil, by simp [arithCt, ascArith, ctZero, emptyCt]⟩
  case opp i =>
    refine Yields.idxBind hwf ?_
    obtain ⟨a1, a2⟩ := h3 i hwf
    exact Yields.pure ⟨a1.oppositeImpl st, by
      simp only [ctOpp, oppositeImpl, List.length_map]; omega⟩
  case shift i k =>
    refine Yields.idxBind hwf ?_
    obtain ⟨a1, a2⟩ := h3 i hwf
    exact Yields.pure ⟨ctShift_valid st a1 k, by rw [length_ctShift]; omega⟩
  case add i j =>
    refine Yields.idxBind hwf.1 (Yields.idxBind hwf.2 ?_)
    obtain ⟨a1, a2⟩ := h3 i hwf.1
    obtain ⟨b1, b2⟩ := h3 j hwf.2
    exact (ctAdd_valid st a1 b1).mono fun z hz => ⟨hz.1, by have := hz.2; omega⟩
  case sub i j =>
    refine Yields.idxBind hwf.1 (Yields.idxBind hwf.2 ?_)
    obtain ⟨a1, a2⟩ := h3 i hwf.1
    obtain ⟨b1, b2⟩ := h3 j hwf.2
    exact (ctSub_valid st a1 b1).mono fun z hz => ⟨hz.1, by have := hz.2; omega⟩
  case addConst i k =>
    refine Yields.idxBind hwf.1 ?_
    obtain ⟨a1, a2⟩ := h3 i hwf.1
    refine (ctAddConst_valid st a1 hwf.2.1 hwf.2.2).mono fun z hz => ⟨hz.1, ?_⟩
    have := hz.2 _ (lt_two_pow_bits k.natAbs)
    omega
  case scalarMul k i =>
    refine Yields.idxBind hwf.1 ?_
    obtain ⟨a1, a2⟩ := h3 i hwf.1
    rw [arithCt_scalarMul]
    obtain ⟨hb, ht⟩ := hsc k i rfl
    refine (ctScalarMul_valid st hb ht hwf.2.1 hwf.2.2 a1).mono fun z hz => ⟨hz.1, ?_⟩
    have := hz.2 _ (lt_two_pow_bits k.natAbs)
    omega
  case sgn i =>
    refine Yields.idxBind hwf ?_
    obtain ⟨a1, a2⟩ := h3 i hwf
    exact (ctSgn_valid st a1).mono fun z hz => ⟨hz.1, by have := hz.2; omega⟩
  case max i j =>
    refine Yields.idxBind hwf.1 (Yields.idxBind hwf.2 ?_)
    obtain ⟨a1, a2⟩ := h3 i hwf.1
    obtain ⟨b1, b2⟩ := h3 j hwf.2
    exact (ctMax_valid st a1 b1).mono fun z hz => ⟨hz.1, by have := hz.2; omega⟩
  case relu i =>
    refine Yields.idxBind hwf ?_
    obtain ⟨a1, a2⟩ := h3 i hwf
    exact (ctRelu_valid st a1).mono fun z hz => ⟨hz.1, by have := hz.2; omega⟩
  case mul i j =>
    refine Yields.idxBind hwf.1 (Yields.idxBind hwf.2 ?_)
    obtain ⟨a1, a2⟩ := h3 i hwf.1
    obtain ⟨b1, b2⟩ := h3 j hwf.2
    split_ifs at hl with h32
    simp only [Option.some.injEq] at hl
    refine (ctMul_valid st a1 b1 (by omega)).mono fun z hz => ⟨hz.1, ?_⟩
    rw [← hl]
    exact hz.2.trans (mulLen_mono (by omega))
  case squ i =>
    refine Yields.idxBind hwf ?_
    obtain ⟨a1, a2⟩ := h3 i hwf
    split_ifs at hl with h32
    simp only [Option.some.injEq] at hl
    refine (ctSqu_valid st a1 (by omega)).mono fun z hz => ⟨hz.1.congr (by ring), ?_⟩
    rw [← hl]
    exact hz.2.trans (squLen_mono (by omega) h32)
  case roundAt i p =>
    refine Yields.idxBind hwf ?_
    obtain ⟨a1, a2⟩ := h3 i hwf
    exact (ctRoundAt_valid st a1 p).mono fun z hz => ⟨hz.1, by have := hz.2; omega⟩

theorem runProg_valid (st : Setting S ck pc B D) :
    ∀ (p : List Instr) {xs : List (Ctxt S.C)} {vs : List Int} {ls ls' : List Nat},
    (∀ k i, .scalarMul k i ∈ p → pc.build = .release ∧ TableOk pc.asc) → RegsOk ck B xs vs ls →
    wfProg p xs.length → lenProg p ls = some ls' →
    Yields (runProg (arithCt S pc) p xs) (fun zs => RegsOk ck B zs (valProg p vs) ls')
  | [], xs, vs, ls, ls', _, h, _, hl => by
    unfold runProg
    simp only [lenProg, Option.some.injEq] at hl
    subst hl
    exact Yields.pure h
  | i :: is, xs, vs, ls, ls', hsc, h, hwf, hl => by
    unfold runProg
    unfold lenProg at hl
    split at hl
    · rename_i l hli
      refine Yields.bind (Instr.run_valid st h i (fun k j e => hsc k j (by simp [e])) hwf.1 hli) fun z hz => ?_
      exact runProg_valid st is (fun k j e => hsc k j (by simp [e])) (h.snoc hz.1 hz.2) (by simpa using hwf.2) hl
    · simp at hl

/-- returns something satisfying the predicate, or a factor was too long -/
def judgeLen : Judge where
  J m P := Yields m P ∨ ∃ e, (e = ErrKind.mulTooLong ∨ e = ErrKind.squTooLong) ∧ Fails m (.panic (.expect e))
  pure h := Or.inl (Yields.pure h)
  bind h1 h2 := by
    rcases h1 with ⟨a, n, ha, hp⟩ | ⟨e, he, h⟩
    · rcases h2 a hp with ⟨b, k, hb, hq⟩ | ⟨e, he, h⟩
      · exact Or.inl ⟨b, n + k, ha.bind hb, hq⟩
      · exact Or.inr ⟨e, he, ha.bind_fails h⟩
    · exact Or.inr ⟨e, he, h.bind⟩

/-- one instruction, without any restriction on the lengths -/
theorem Instr.run_judge (st : Setting S ck pc B D)
    (hmul : ∀ x y : Ctxt S.C, 32 < x.length ∨ 32 < y.length →
      Fails (ctMul S pc x y) (.panic (.expect .mulTooLong)))
    (hsqu : ∀ x : Ctxt S.C, 32 < x.length → Fails (ctSqu S pc x) (.panic (.expect .squTooLong)))
    {xs : List (Ctxt S.C)} {vs : List Int} {ls : List Nat} (h : RegsOk ck B xs vs ls) (ins : Instr)
    (hsc : ∀ k i, ins = .scalarMul k i → pc.build = .release ∧ TableOk pc.asc)
    (hwf : ins.wf xs.length) :
    judgeLen.J (ins.run (arithCt S pc) xs) (fun z => Valid ck B z (ins.val vs)) := by
  have h' : RegsOk ck B xs vs (xs.map List.length) := by
    refine ⟨h.1, by simp, fun i hi => ⟨(h.2.2 i hi).1, ?_⟩⟩
    simp [List.getD_eq_getElem?_getD, hi]
  cases hlen : ins.len (xs.map List.length) with
  | some l => exact Or.inl ((Instr.run_valid st h' ins hsc hwf hlen).mono fun z hz => hz.1)
  | none =>
    refine Or.inr ?_
    cases ins <;> simp only [Instr.len, reduceCtorEq, ite_eq_right_iff, imp_false] at hlen
    case mul i j =>
      refine ⟨_, Or.inl rfl, ?_⟩
      simp only [Instr.wf] at hwf
      simp only [List.getD_eq_getElem?_getD, List.getElem?_map, List.getElem?_eq_getElem hwf.1,
        List.getElem?_eq_getElem hwf.2, Option.map_some, Option.getD_some] at hlen
      exact (Returns.idx hwf.1).bind_fails ((Returns.idx hwf.2).bind_fails (hmul _ _ (by omega)))
    case squ i =>
      refine ⟨_, Or.inr rfl, ?_⟩
      simp only [Instr.wf] at hwf
      simp only [List.getD_eq_getElem?_getD, List.getElem?_map, List.getElem?_eq_getElem hwf,
        Option.map_some, Option.getD_some] at hlen
      exact (Returns.idx hwf).bind_fails (hsqu _ (by omega))

theorem runProg_judge (st : Setting S ck pc B D)
    (hmul : ∀ x y : Ctxt S.C, 32 < x.length ∨ 32 < y.length →
      Fails (ctMul S pc x y) (.panic (.expect .mulTooLong)))
    (hsqu : ∀ x : Ctxt S.C, 32 < x.length → Fails (ctSqu S pc x) (.panic (.expect .squTooLong))) :
    ∀ (p : List Instr) {xs : List (Ctxt S.C)} {vs : List Int} {ls : List Nat},
    (∀ k i, .scalarMul k i ∈ p → pc.build = .release ∧ TableOk pc.asc) → RegsOk ck B xs vs ls →
    wfProg p xs.length →
    judgeLen.J (runProg (arithCt S pc) p xs) (fun zs => ∃ ls', RegsOk ck B zs (valProg p vs) ls')
  | [], xs, vs, ls, _, h, _ => by
    unfold runProg
    exact judgeLen.pure ⟨ls, h⟩
  | i :: is, xs, vs, ls, hsc, h, hwf => by
    unfold runProg
    refine judgeLen.bind (Instr.run_judge st hmul hsqu h i (fun k j e => hsc k j (by simp [e])) hwf.1) fun z hz => ?_
    exact runProg_judge st hmul hsqu is (fun k j e => hsc k j (by simp [e])) (h.snoc hz (le_refl _)) (by simpa using hwf.2)

end
end Parm
