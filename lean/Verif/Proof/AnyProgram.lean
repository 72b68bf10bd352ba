import Verif.Proof.AnyOps
import Verif.Proof.Program

/-!
# Programs on words of arbitrary contents (C74)
-/

namespace Parm
section
variable {S : Scheme} {pc : Cloud}

/-- the registers hold ciphertexts of at most `ls` words, all of modulus 32 -/
def RegsAny {C : Type} (xs : List (Ctxt C)) (ls : List Nat) : Prop :=
  ls.length = xs.length ∧ ∀ i (h : i < xs.length), Mod32 xs[i] ∧ xs[i].length ≤ ls.getD i 0

theorem RegsAny.snoc {C : Type} {xs : List (Ctxt C)} {ls : List Nat} (h : RegsAny xs ls)
    {z : Ctxt C} {l : Nat} (hz : Mod32 z) (hl : z.length ≤ l) : RegsAny (xs ++ [z]) (ls ++ [l]) := by
  obtain ⟨h2, h3⟩ := h
  refine ⟨by simp [h2], fun i hi => ?_⟩
  by_cases hx : i < xs.length
  · rw [List.getElem_append_left hx, List.getD_append _ _ _ _ (by omega)]
    exact h3 i hx
  · have : i = xs.length := by simp at hi; omega
    subst this
    rw [List.getElem_concat_length rfl]
    have e2 : (ls ++ [l]).getD xs.length 0 = l := by
      rw [← h2]; simp [List.getD_eq_getElem?_getD]
    rw [e2]
    exact ⟨hz, hl⟩

theorem RegsAny.ofMod {C : Type} {xs : List (Ctxt C)} (h : ∀ x ∈ xs, Mod32 x) : RegsAny xs (xs.map List.length) :=
  ⟨by simp, fun i hi => ⟨h _ (List.getElem_mem hi), by simp [List.getD_eq_getElem?_getD, hi]⟩⟩

theorem RegsAny.mod {C : Type} {xs : List (Ctxt C)} {ls : List Nat} (h : RegsAny xs ls) : ∀ x ∈ xs, Mod32 x := by
  intro x hx
  obtain ⟨i, hi, rfl⟩ := List.getElem_of_mem hx
  exact (h.2 i hi).1

theorem Instr.run_any (hm : Mods pc) {xs : List (Ctxt S.C)} {ls : List Nat} (h : RegsAny xs ls) (ins : Instr)
    (hsc : ∀ k i, ins = .scalarMul k i → pc.build = .release ∧ TableOk pc.asc)
    (hwf : ins.wf xs.length) {l : Nat} (hl : ins.len ls = some l) :
    Yields (ins.run (arithCt S pc) xs) (fun z => Mod32 z ∧ z.length ≤ l) := by
  obtain ⟨_, h3⟩ := h
  cases ins <;> simp only [Instr.wf] at hwf <;>
    simp only [Instr.len, Option.some.injEq] at hl <;>
    simp only [Instr.run]
  case zero => exact Yields.pure ⟨Mod32.nil, by simp [arithCt, ascArith, ctZero, emptyCt]⟩
  case opp i =>
    refine Yields.idxBind hwf ?_
    obtain ⟨a1, a2⟩ := h3 i hwf
    exact Yields.pure ⟨a1.opp, by
      simp only [ctOpp, oppositeImpl, List.length_map]; omega⟩
  case shift i k =>
    refine Yields.idxBind hwf ?_
    obtain ⟨a1, a2⟩ := h3 i hwf
    exact Yields.pure ⟨Mod32.shift hm a1 k, by rw [length_ctShift]; omega⟩
  case add i j =>
    refine Yields.idxBind hwf.1 (Yields.idxBind hwf.2 ?_)
    obtain ⟨a1, a2⟩ := h3 i hwf.1
    obtain ⟨b1, b2⟩ := h3 j hwf.2
    exact (ctAdd_any hm a1 b1).mono fun z hz => ⟨hz.1, by have := hz.2; omega⟩
  case sub i j =>
    refine Yields.idxBind hwf.1 (Yields.idxBind hwf.2 ?_)
    obtain ⟨a1, a2⟩ := h3 i hwf.1
    obtain ⟨b1, b2⟩ := h3 j hwf.2
    exact (addSub_any_len hm false true a1 b1).call.mono fun z hz => ⟨hz.1, by have := hz.2; omega⟩
  case addConst i k =>
    refine Yields.idxBind hwf.1 ?_
    obtain ⟨a1, a2⟩ := h3 i hwf.1
    refine (ctAddConst_any hm a1 (by omega) hwf.2.2 (Or.inr (by omega))).mono fun z hz => ⟨hz.1, ?_⟩
    have := hz.2 _ (lt_two_pow_bits k.natAbs)
    omega
  case scalarMul k i =>
    refine Yields.idxBind hwf.1 ?_
    obtain ⟨a1, a2⟩ := h3 i hwf.1
    rw [arithCt_scalarMul]
    obtain ⟨hb, ht⟩ := hsc k i rfl
    refine (ctScalarMul_any hm hb ht hwf.2.1 hwf.2.2 a1).mono fun z hz => ⟨hz.1, ?_⟩
    have := hz.2 _ (lt_two_pow_bits k.natAbs)
    omega
  case sgn i =>
    refine Yields.idxBind hwf ?_
    obtain ⟨a1, a2⟩ := h3 i hwf
    refine (ctSgn_any hm a1).mono fun z hz => ⟨hz.1, ?_⟩
    rw [hz.2]
    split_ifs with h0
    · omega
    · have := List.length_pos_iff.2 h0; omega
  case max i j =>
    refine Yields.idxBind hwf.1 (Yields.idxBind hwf.2 ?_)
    obtain ⟨a1, a2⟩ := h3 i hwf.1
    obtain ⟨b1, b2⟩ := h3 j hwf.2
    exact (maxImpl_any hm a1 b1).call.mono fun z hz => ⟨hz.1, by have := hz.2; omega⟩
  case relu i =>
    refine Yields.idxBind hwf ?_
    obtain ⟨a1, a2⟩ := h3 i hwf
    refine (maxImpl_any hm (x := ctZero S.C) Mod32.nil a1).call.mono fun z hz => ⟨hz.1, ?_⟩
    have := hz.2
    simp only [ctZero, emptyCt, List.length_nil] at this
    omega
  case mul i j =>
    refine Yields.idxBind hwf.1 (Yields.idxBind hwf.2 ?_)
    obtain ⟨a1, a2⟩ := h3 i hwf.1
    obtain ⟨b1, b2⟩ := h3 j hwf.2
    split_ifs at hl with h32
    simp only [Option.some.injEq] at hl
    refine (ctMul_any hm a1 b1 (by omega)).mono fun z hz => ⟨hz.1, ?_⟩
    rw [← hl]
    exact hz.2.trans (mulLen_mono (by omega))
  case squ i =>
    refine Yields.idxBind hwf ?_
    obtain ⟨a1, a2⟩ := h3 i hwf
    split_ifs at hl with h32
    simp only [Option.some.injEq] at hl
    refine (ctSqu_any hm a1 (by omega)).mono fun z hz => ⟨hz.1, ?_⟩
    rw [← hl]
    exact hz.2.trans (squLen_mono (by omega) h32)
  case roundAt i p =>
    refine Yields.idxBind hwf ?_
    obtain ⟨a1, a2⟩ := h3 i hwf
    exact (ctRoundAt_any hm a1 p).mono fun z hz => ⟨hz.1, by have := hz.2; omega⟩

theorem runProg_any (hm : Mods pc) :
    ∀ (p : List Instr) {xs : List (Ctxt S.C)} {ls ls' : List Nat},
    (∀ k i, .scalarMul k i ∈ p → pc.build = .release ∧ TableOk pc.asc) → RegsAny xs ls →
    wfProg p xs.length → lenProg p ls = some ls' →
    Yields (runProg (arithCt S pc) p xs) (fun zs => RegsAny zs ls')
  | [], xs, ls, ls', _, h, _, hl => by
    unfold runProg
    simp only [lenProg, Option.some.injEq] at hl
    subst hl
    exact Yields.pure h
  | i :: is, xs, ls, ls', hsc, h, hwf, hl => by
    unfold runProg
    unfold lenProg at hl
    split at hl
    · rename_i l hli
      refine Yields.bind (Instr.run_any hm h i (fun k j e => hsc k j (by simp [e])) hwf.1 hli) fun z hz => ?_
      exact runProg_any hm is (fun k j e => hsc k j (by simp [e])) (h.snoc hz.1 hz.2) (by simpa using hwf.2) hl
    · simp at hl

theorem Instr.run_any_judge (hm : Mods pc)
    (hmul : ∀ x y : Ctxt S.C, 32 < x.length ∨ 32 < y.length →
      Fails (ctMul S pc x y) (.panic (.expect .mulTooLong)))
    (hsqu : ∀ x : Ctxt S.C, 32 < x.length → Fails (ctSqu S pc x) (.panic (.expect .squTooLong)))
    {xs : List (Ctxt S.C)} (h : ∀ x ∈ xs, Mod32 x) (ins : Instr)
    (hsc : ∀ k i, ins = .scalarMul k i → pc.build = .release ∧ TableOk pc.asc)
    (hwf : ins.wf xs.length) :
    judgeLen.J (ins.run (arithCt S pc) xs) (fun z => Mod32 z) := by
  have h' := RegsAny.ofMod h
  cases hlen : ins.len (xs.map List.length) with
  | some l => exact Or.inl ((Instr.run_any hm h' ins hsc hwf hlen).mono fun z hz => hz.1)
  | none =>
    refine Or.inr ?_
    cases ins <;> simp only [Instr.len, reduceCtorEq, ite_eq_right_iff, imp_false] at hlen
    case mul i j =>
      refine ⟨_, Or.inl rfl, ?_⟩
      simp only [Instr.wf] at hwf
      simp only [List.getD_eq_getElem?_getD, List.getElem?_map, List.getElem?_eq_getElem hwf.1,
        List.getElem?_eq_getElem hwf.2, Option.map_some, Option.getD_some] at hlen
      exact (Returns.idx hwf.1).bind_fails ((Returns.idx hwf.2).bind_fails (hmul _ _ (by omega)))
    case squ i =>
      refine ⟨_, Or.inr rfl, ?_⟩
      simp only [Instr.wf] at hwf
      simp only [List.getD_eq_getElem?_getD, List.getElem?_map, List.getElem?_eq_getElem hwf,
        Option.map_some, Option.getD_some] at hlen
      exact (Returns.idx hwf).bind_fails (hsqu _ (by omega))

theorem runProg_any_judge (hm : Mods pc)
    (hmul : ∀ x y : Ctxt S.C, 32 < x.length ∨ 32 < y.length →
      Fails (ctMul S pc x y) (.panic (.expect .mulTooLong)))
    (hsqu : ∀ x : Ctxt S.C, 32 < x.length → Fails (ctSqu S pc x) (.panic (.expect .squTooLong))) :
    ∀ (p : List Instr) {xs : List (Ctxt S.C)},
    (∀ k i, .scalarMul k i ∈ p → pc.build = .release ∧ TableOk pc.asc) → (∀ x ∈ xs, Mod32 x) →
    wfProg p xs.length →
    judgeLen.J (runProg (arithCt S pc) p xs) (fun zs => (∀ z ∈ zs, Mod32 z) ∧ zs.length = xs.length + p.length)
  | [], xs, _, h, _ => by
    unfold runProg
    exact judgeLen.pure ⟨h, by simp⟩
  | i :: is, xs, hsc, h, hwf => by
    unfold runProg
    refine judgeLen.bind (Instr.run_any_judge hm hmul hsqu h i (fun k j e => hsc k j (by simp [e])) hwf.1) fun z hz => ?_
    refine judgeLen.mono (runProg_any_judge hm hmul hsqu is (fun k j e => hsc k j (by simp [e])) ?_ (by simpa using hwf.2)) ?_
    · intro x hx
      rcases List.mem_append.1 hx with hx | hx
      · exact h x hx
      · rw [List.mem_singleton.1 hx]; exact hz
    · rintro zs ⟨h1, h2⟩
      exact ⟨h1, by simp at h2 ⊢; omega⟩

end
end Parm
