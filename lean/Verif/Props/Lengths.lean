import Verif.Proof.Lengths
import Verif.Props.NN
import Verif.Props.Program

/-!
# The exact number of words of results: property C57
-/

namespace Parm

section
variable {S : Scheme} {ck : ClientKey S} {pc : Cloud} {B D : Nat}

/-- the computation returns, and its result satisfies `P` and `Q` -/
theorem Yields.and_ensures {α : Type} {m : M α} {P Q : α → Prop} (h : Yields m P) (h' : Ensures m Q) :
    Yields m fun a => P a ∧ Q a := by
  obtain ⟨a, n, hr, hp⟩ := h
  obtain ⟨r, l, _, hs⟩ := hr (St.init Sched.seq)
  exact ⟨a, n, hr, hp, h' _ _ _ hs⟩

/-- the words of a new encryption are all encrypted -/
theorem words_of_encrypted {x : Ctxt S.C} (h : ∀ i (hi : i < x.length), x[i].isTriv = false) : Words x.length x := by
  refine ⟨rfl, fun w hw => ?_⟩
  obtain ⟨i, hi, rfl⟩ := List.getElem_of_mem (List.mem_of_getLast? hw)
  have := h i hi
  unfold Word.isTriv at this
  unfold Encrypted
  cases e : x[i].ct with
  | triv pt => rw [e] at this; cases this
  | ct c => exact ⟨c, rfl⟩

/-- **C57**, whole programs: on operands whose most significant words are encrypted, the numbers of words of all results
are those computed on the numbers of words alone, whatever the operands hold.  (In any build, for any scheme, in every
run that returns.) -/
theorem C57_program (h1 : pc.msgMod = 32) (h5 : pc.params.bitPrecision = 5) (p : List Instr) {xs : List (Ctxt S.C)}
    {ns ms : List Nat} {c : Nat} (h : List.Forall₂ (fun x n => Words n x) xs ns)
    (hm : Returns (runProg (arithLen pc) p ns) ms c) :
    Ensures (runProg (arithCt S pc) p xs) fun zs => List.Forall₂ (fun z n => Words n z) zs ms :=
  ((Wt.lenArith S h1 h5).prog p h).ensures hm

/-- **C57**, neural networks. -/
theorem C57_network (h1 : pc.msgMod = 32) (h5 : pc.params.bitPrecision = 5) (nn : NeuralNetwork) {xs : List (Ctxt S.C)}
    {ns ms : List Nat} {c : Nat} (h : List.Forall₂ (fun x n => Words n x) xs ns)
    (hm : Returns (nn.eval (arithLen pc) ns) ms c) :
    Ensures (nn.eval (arithCt S pc) xs) fun zs => List.Forall₂ (fun z n => Words n z) zs ms :=
  ((Wt.lenArith S h1 h5).evalLayers nn.layers h .nil).ensures hm

/-- **C57**, networks on valid inputs: the outputs hold the exact values, in exactly so many words. -/
theorem C57_network_valid (st : Setting S ck pc B D) (hs : Shipped pc) {nn : NeuralNetwork} (hr : NetRange nn)
    {xs : List (Ctxt S.C)} {vs : List Int} {ns ms : List Nat} {c : Nat}
    (hx : List.Forall₂ (fun x v => Valid ck B x v) xs vs) (h : List.Forall₂ (fun x n => Words n x) xs ns)
    (hm : Returns (nn.eval (arithLen pc) ns) ms c) :
    Yields (nn.eval (arithCt S pc) xs) fun zs => List.Forall₂ (fun z v => Valid ck B z v) zs (netZ nn.layers vs) ∧
      List.Forall₂ (fun z n => z.length = n) zs ms :=
  ((C25_encrypted st hs hr hx).and_ensures (C57_network st.msgMod st.bitPrecision nn h hm)).mono
    fun _ h => ⟨h.1, h.2.imp fun _ _ h => h.1⟩

theorem accumulate_len : ∀ (ns : List Nat) (n : Nat), 0 < n → (∀ m ∈ ns, 0 < m ∧ m ≤ n) →
    Returns (accumulate (arithLen pc) ns n) (n + ns.length) 0
  | [], n, _, _ => Returns.pure _
  | m :: ns, n, h0, h => by
    obtain ⟨h1, h2⟩ := h m (by simp)
    have e : lenAdd n m = n + 1 := by
      unfold lenAdd
      rw [if_neg (by omega), if_neg (by omega)]
      omega
    refine Returns.bind0 (Returns.pure _) ?_
    show Returns (accumulate (arithLen pc) ns (lenAdd n m)) _ 0
    rw [e]
    refine (accumulate_len ns (n + 1) (by omega) fun m hm => ?_).congr (by rw [List.length_cons]; omega) rfl
    have := h m (by simp [hm])
    omega

theorem accumulate_valid (st : Setting S ck pc B D) : ∀ {xs : List (Ctxt S.C)} {vs : List Int} {x : Ctxt S.C} {v : Int},
    List.Forall₂ (fun x v => Valid ck B x v) xs vs → Valid ck B x v →
    Yields (accumulate (arithCt S pc) xs x) fun z => Valid ck B z (v + vs.sum)
  | _, _, x, v, .nil, hx => by
    refine (Yields.pure (P := fun z => Valid ck B z (v + 0)) ?_)
    simpa using hx
  | _, _, x, v, .cons (b := u) (l₂ := us) h1 h2, hx => by
    refine (ctAdd_valid st hx h1).bind fun z hz => ?_
    refine (accumulate_valid st h2 hz.1).mono fun z h => ?_
    rw [List.sum_cons, ← Int.add_assoc]
    exact h

/-- **C57**, accumulation: adding `k` encrypted ciphertexts, each of at most as many words, to one of `n` words with an
encrypted most significant word, one after the other, gives exactly `n + k` words — one per addition, although the sum
grows by `log₂ k` bits only.  The result holds the exact sum … -/
theorem C57_accumulate (st : Setting S ck pc B D) {xs : List (Ctxt S.C)} {vs : List Int} {x : Ctxt S.C} {v : Int} {n : Nat}
    {ns : List Nat} (hv : List.Forall₂ (fun x v => Valid ck B x v) xs vs) (hx : Valid ck B x v) (h0 : 0 < n)
    (hn : Words n x) (hns : List.Forall₂ (fun x m => Words m x) xs ns) (hle : ∀ m ∈ ns, 0 < m ∧ m ≤ n) :
    Yields (accumulate (arithCt S pc) xs x) fun z => Valid ck B z (v + vs.sum) ∧ z.length = n + xs.length := by
  refine ((accumulate_valid st hv hx).and_ensures (((Wt.lenArith S st.msgMod st.bitPrecision).accumulate hns hn).ensures
    (accumulate_len ns n h0 hle))).mono fun z h => ⟨h.1, ?_⟩
  rw [h.2.1, hns.length_eq]

/-- … but cannot be decrypted as soon as `n + k > 63`, however small the sum is. -/
theorem C57_accumulate_undecryptable (st : Setting S ck pc B D) (build : Build) {xs : List (Ctxt S.C)} {vs : List Int}
    {x : Ctxt S.C} {v : Int} {n : Nat} {ns : List Nat} (hv : List.Forall₂ (fun x v => Valid ck B x v) xs vs)
    (hx : Valid ck B x v) (h0 : 0 < n) (hn : Words n x) (hns : List.Forall₂ (fun x m => Words m x) xs ns)
    (hle : ∀ m ∈ ns, 0 < m ∧ m ≤ n) :
    (n + xs.length ≤ 63 → Yields (do let z ← accumulate (arithCt S pc) xs x; parmDecrypt ck build z) (· = v + vs.sum)) ∧
    (63 < n + xs.length → Fails (do let z ← accumulate (arithCt S pc) xs x; parmDecrypt ck build z) (.err .ctTooLong)) := by
  obtain ⟨z, k, hz, h1, h2⟩ := C57_accumulate st hv hx h0 hn hns hle
  exact ⟨fun h => ⟨_, _, hz.bind (h1.decrypt st build (by omega)), rfl⟩,
    fun h => hz.bind_fails (parmDecrypt_too_long ck build (by omega))⟩

end

/-! ### Cases -/

theorem forall₂_replicate {α β : Type} {R : α → β → Prop} {a : α} {b : β} : ∀ n : Nat, R a b →
    List.Forall₂ R (List.replicate n a) (List.replicate n b)
  | 0, _ => .nil
  | n + 1, h => .cons h (forall₂_replicate n h)

theorem Demo.words_encVec (l : List Int) : Words l.length (Demo.encVec l) := by
  have h := words_of_encrypted (x := Demo.encVec l) fun i hi => by
    simp only [Demo.encVec, List.getElem_map]
    rfl
  have e : (Demo.encVec l).length = l.length := by simp [Demo.encVec]
  rwa [e] at h

/-- Case: `max(x, y) - 5·x`, its sign, its ReLU shifted by 2 — on 3 and 4 words. -/
example : Ensures (runProg (arithCt Demo.scheme Demo.cloud12)
      [.max 0 1, .scalarMul 5 0, .sub 2 3, .sgn 4, .relu 4, .shift 6 2, .addConst 7 (-100)]
      [Demo.encVec [1, 0, 1], Demo.encVec [0, 1, 0, -1]])
    fun zs => zs.map List.length = [3, 4, 4, 6, 7, 1, 7, 9, 10] := by
  intro s zs s' e
  have h := C57_program (S := Demo.scheme) (pc := Demo.cloud12) rfl rfl
    [.max 0 1, .scalarMul 5 0, .sub 2 3, .sgn 4, .relu 4, .shift 6 2, .addConst 7 (-100)]
    (.cons (Demo.words_encVec [1, 0, 1]) (.cons (Demo.words_encVec [0, 1, 0, -1]) .nil))
    (ms := [3, 4, 4, 6, 7, 1, 7, 9, 10]) (c := 0) (Returns.run fun s => ⟨s.region, rfl⟩) s zs s' e
  clear e
  generalize [3, 4, 4, 6, 7, 1, 7, 9, 10] = ms at h ⊢
  induction h with
  | nil => rfl
  | cons h1 _ ih => rw [List.map_cons, h1.1, ih]

/-- Case: 62 encryptions of 1 in one word each, added one after the other, decrypt to 62 … -/
example : Yields (do
      let z ← accumulate (arithCt Demo.scheme Demo.cloud12) (List.replicate 61 (Demo.encVec [1])) (Demo.encVec [1])
      parmDecrypt Demo.ck .release z) (· = 62) :=
  (C57_accumulate_undecryptable Demo.st12 .release (vs := List.replicate 61 1) (v := 1) (n := 1) (ns := List.replicate 61 1)
    (forall₂_replicate _ (Demo.valid_encVec [1] (by unfold IsDigit; decide)))
    (Demo.valid_encVec [1] (by unfold IsDigit; decide)) (by decide) (Demo.words_encVec [1])
    (forall₂_replicate _ (Demo.words_encVec [1])) (by decide)).1 (by decide)

/-- … 64 do not decrypt. -/
example : Fails (do
      let z ← accumulate (arithCt Demo.scheme Demo.cloud12) (List.replicate 63 (Demo.encVec [1])) (Demo.encVec [1])
      parmDecrypt Demo.ck .release z) (.err .ctTooLong) :=
  (C57_accumulate_undecryptable Demo.st12 .release (vs := List.replicate 63 1) (v := 1) (n := 1) (ns := List.replicate 63 1)
    (forall₂_replicate _ (Demo.valid_encVec [1] (by unfold IsDigit; decide)))
    (Demo.valid_encVec [1] (by unfold IsDigit; decide)) (by decide) (Demo.words_encVec [1])
    (forall₂_replicate _ (Demo.words_encVec [1])) (by decide)).2 (by decide)

end Parm
