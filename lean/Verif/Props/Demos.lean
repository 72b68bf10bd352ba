import Verif.Proof.Demos

/-!
# The demos: property C58
-/

namespace Parm
section
variable {S : Scheme} {ck : ClientKey S} {pc : Cloud} {B D : Nat}

/-- **C58**, `arith_demo` up to the decryption: with the shipped chains and the parameters of the demo, for all keys and
randomness, in both builds and under every schedule, the evaluation takes exactly 7808 bootstraps, every result holds
the expected value, and has exactly so many words. -/
theorem C58_arith_demo_eval (st : Setting S ck pc B D) (hp : pc.params = Params.M4C0) (ha : pc.asc = asc12)
    (seed : Nat → Nat → Nat) :
    ∃ zs, Returns (arithDemoEval S ck pc seed) zs 7808 ∧ List.Forall₂ (fun z v => Valid ck B z v) zs arithDemoExp ∧
      zs.map List.length = [29, 29, 29, 1, 28, 2, 8, 16, 33, 34, 66, 9, 18, 35, 37, 68, 25, 23, 18] := by
  obtain ⟨cs, hc, hf⟩ := demoEncrypt_spec st seed arithDemoIn 0 (by decide)
  unfold arithDemoIn at hf
  rcases hf with _ | ⟨⟨p0, q0, s0⟩, hf⟩
  rcases hf with _ | ⟨⟨p1, q1, s1⟩, hf⟩
  rcases hf with _ | ⟨⟨p2, q2, s2⟩, hf⟩
  rcases hf with _ | ⟨⟨p3, q3, s3⟩, hf⟩
  rcases hf with _ | ⟨⟨p4, q4, s4⟩, hf⟩
  rcases hf with _ | ⟨⟨p5, q5, s5⟩, hf⟩
  rcases hf with _ | ⟨⟨p6, q6, s6⟩, hf⟩
  rcases hf with _ | ⟨⟨p7, q7, s7⟩, hf⟩
  rcases hf with _ | ⟨⟨p8, q8, s8⟩, hf⟩
  rcases hf with _ | ⟨⟨p9, q9, s9⟩, hf⟩
  rcases hf with _ | ⟨⟨p10, q10, s10⟩, hf⟩
  rcases hf with _ | ⟨⟨p11, q11, s11⟩, hf⟩
  rcases hf with _ | ⟨⟨p12, q12, s12⟩, hf⟩
  rcases hf with _ | ⟨⟨p13, q13, s13⟩, hf⟩
  rcases hf with _ | ⟨⟨p14, q14, s14⟩, hf⟩
  rcases hf with _ | _
  rename_i c0 c1 c2 c3 c4 c5 c6 c7 c8 c9 c10 c11 c12 c13 c14
  obtain ⟨zs, hz, hl⟩ := arithDemoOps_cost st.msgMod st.carryMod hp ha ⟨s0, p0⟩ ⟨s1, p1⟩ ⟨s2, p2⟩ ⟨s3, p3⟩ ⟨s4, p4⟩ ⟨s5, p5⟩
    ⟨s6, p6⟩ ⟨s7, p7⟩ ⟨s8, p8⟩ ⟨s9, p9⟩ ⟨s10, p10⟩ ⟨s11, p11⟩ ⟨s12, p12⟩ ⟨s13, p13⟩ ⟨s14, p14⟩
  refine ⟨zs, ?_, ?_, hl⟩
  · unfold arithDemoEval
    exact hc.bind0 hz
  · exact arithDemoOps_valid st ha (.cons q0 <| .cons q1 <| .cons q2 <| .cons q3 <| .cons q4 <| .cons q5 <| .cons q6 <| .cons q7 <|
      .cons q8 <| .cons q9 <| .cons q10 <| .cons q11 <| .cons q12 <| .cons q13 <| .cons q14 .nil)
      (by simp only [List.map_cons, List.map_nil, p0, p1, p2, p3, p4, p5, p6, p7, p8, p9, p10, p11, p12, p13, p14]; rfl) hz

/-- **C58**, `arith_demo`: it never prints its table.  For all keys and randomness, in both builds and under every schedule,
it ends with the error that a ciphertext is too long for decryption. -/
theorem C58_arith_demo (st : Setting S ck pc B D) (hp : pc.params = Params.M4C0) (ha : pc.asc = asc12)
    (seed : Nat → Nat → Nat) : Fails (arithDemo S ck pc seed) (.err .ctTooLong) := by
  obtain ⟨zs, h1, h2, h3⟩ := C58_arith_demo_eval st hp ha seed
  refine h1.bind_fails (Fails.bind ?_)
  have hn : zs.length = 19 := by
    have := congrArg List.length h3
    simpa using this
  have hget : ∀ i (h : i < zs.length), zs[i].length = [29, 29, 29, 1, 28, 2, 8, 16, 33, 34, 66, 9, 18, 35, 37, 68, 25, 23, 18].getD i 0 := by
    intro i h
    rw [← h3, List.getD_eq_getElem?_getD, List.getElem?_map, List.getElem?_eq_getElem h]
    rfl
  have e : zs = zs.take 10 ++ zs[10] :: zs.drop 11 := by
    rw [List.getElem_cons_drop, List.take_append_drop]
  rw [e]
  refine demoDecrypt_fails (fun a hm => ?_) (by rw [hget]; decide)
  obtain ⟨i, hi, rfl⟩ := List.getElem_of_mem hm
  have hi' : i < 10 := lt_of_lt_of_le hi (List.length_take_le 10 zs)
  rw [List.getElem_take]
  have hiz : i < zs.length := by omega
  refine ⟨_, (h2.get hiz (by rw [← h2.length_eq]; exact hiz)).decrypt st pc.build ?_⟩
  show zs[i].length ≤ 63
  rw [hget]
  have : ∀ i, i < 10 → [29, 29, 29, 1, 28, 2, 8, 16, 33, 34, 66, 9, 18, 35, 37, 68, 25, 23, 18].getD i 0 ≤ 63 := by decide
  exact this i hi'

/-- **C58** (partial: the property as wished, "every line says `PASS`", is false by `C58_arith_demo`), line by line: of the 19 results exactly the 32-bit product and the 32-bit square cannot be decrypted; all
others decrypt to the expected values. -/
theorem C58_arith_demo_lines_partial (st : Setting S ck pc B D) (hp : pc.params = Params.M4C0) (ha : pc.asc = asc12)
    (seed : Nat → Nat → Nat) : Yields (arithDemoEval S ck pc seed) fun zs => zs.length = 19 ∧
      ∀ i (h : i < zs.length), if i = 10 ∨ i = 15 then Fails (parmDecrypt ck pc.build zs[i]) (.err .ctTooLong)
        else Returns (parmDecrypt ck pc.build zs[i]) (arithDemoExp.getD i 0) 0 := by
  obtain ⟨zs, h1, h2, h3⟩ := C58_arith_demo_eval st hp ha seed
  have hn : zs.length = 19 := by
    have := congrArg List.length h3
    simpa using this
  refine ⟨zs, _, h1, hn, fun i h => ?_⟩
  have hget : zs[i].length = [29, 29, 29, 1, 28, 2, 8, 16, 33, 34, 66, 9, 18, 35, 37, 68, 25, 23, 18].getD i 0 := by
    rw [← h3, List.getD_eq_getElem?_getD, List.getElem?_map, List.getElem?_eq_getElem h]
    rfl
  have key : ∀ i : Fin 19, if i.1 = 10 ∨ i.1 = 15 then
      63 < [29, 29, 29, 1, 28, 2, 8, 16, 33, 34, 66, 9, 18, 35, 37, 68, 25, 23, 18].getD i.1 0
      else [29, 29, 29, 1, 28, 2, 8, 16, 33, 34, 66, 9, 18, 35, 37, 68, 25, 23, 18].getD i.1 0 ≤ 63 := by decide
  have k := key ⟨i, by omega⟩
  dsimp only at k
  split_ifs at k ⊢ with c
  · exact parmDecrypt_too_long ck pc.build (by omega)
  · have h' : i < arithDemoExp.length := by rw [← h2.length_eq]; exact h
    have := (h2.get h h').decrypt st pc.build (by show zs[i].length ≤ 63; omega)
    rwa [List.getD_eq_getElem?_getD, List.getElem?_eq_getElem h', Option.getD_some]

/-! ### `nn_demo` -/

theorem i64Op_total (x : Int) : Yields (i64Op .release x) fun _ => True := by
  unfold i64Op
  split_ifs
  · exact Yields.pure trivial
  · exact Yields.pure trivial

/-- in the release build the plaintext evaluation of a network never fails -/
theorem plain_release (nn : NeuralNetwork) (vs : List Int) : Yields (nn.eval (arithI64 .release) vs) fun _ => True :=
  (nnEval_spec (Z := judgeYields) (R := fun _ _ => True) (okW := fun _ => True) (okB := fun _ => True) (A := arithI64 .release)
    { zero := trivial
      add := fun _ _ => i64Op_total _
      addConst := fun _ _ => i64Op_total _
      scalarMul := fun _ _ => i64Op_total _
      max := fun _ _ => Yields.pure trivial
      relu := fun _ => Yields.pure trivial } nn (fun _ _ _ _ => ⟨fun _ _ => trivial, trivial⟩)
      (List.forall₂_same.mpr fun _ _ => trivial : List.Forall₂ (fun _ _ => True) vs vs)).mono fun _ _ => trivial

theorem arrhythmia_range : NetRange arrhythmiaNn := by
  unfold NetRange
  decide +kernel

theorem truncTo_small {m : Int} {w : Nat} (h : m.natAbs < 2 ^ w) : truncTo m w = m := by
  unfold truncTo
  rw [Nat.mod_eq_of_lt h]
  exact Int.sign_mul_natAbs m

/-- **C58**, the network of `nn_demo`: on any 16 encrypted inputs of 11 words each its outputs hold the exact integer
outputs, but each of them has 86 to 90 words, so none can be decrypted. -/
theorem C58_arrhythmia (st : Setting S ck pc B D) (hs : Shipped pc) {xs : List (Ctxt S.C)} {vs : List Int}
    (hx : List.Forall₂ (fun x v => Valid ck B x v) xs vs) (hn : xs.length = 16)
    (hw : ∀ x ∈ xs, x.length = 11 ∧ AllEncrypted x) :
    Yields (arrhythmiaNn.eval (arithCt S pc) xs) fun zs =>
      List.Forall₂ (fun z v => Valid ck B z v) zs (netZ arrhythmiaNn.layers vs) ∧ zs.length = 16 ∧
      ∀ z ∈ zs, 86 ≤ z.length ∧ z.length ≤ 90 ∧ ∀ build, Fails (parmDecrypt ck build z) (.err .ctTooLong) := by
  have hl : List.Forall₂ (fun x n => Words n x) xs (List.replicate 16 11) := by
    rw [← hn]
    clear hn hx
    induction xs with
    | nil => exact .nil
    | cons x xs ih =>
      refine .cons ?_ (ih fun y hy => hw y (by simp [hy]))
      have := hw x (by simp)
      rw [← this.1]
      exact ⟨rfl, fun w hw => (this.2 w (List.mem_of_getLast? hw)).1⟩
  have h := arrhythmia_len
  rw [← arithLen_congr (pc := pc) hs.1 hs.2] at h
  refine (C57_network_valid st hs arrhythmia_range hx hl h).mono fun zs hz => ⟨hz.1, hz.2.length_eq, fun z hm => ?_⟩
  obtain ⟨i, hi, rfl⟩ := List.getElem_of_mem hm
  have hi' : i < arrOut.length := by rw [← hz.2.length_eq]; exact hi
  have e : zs[i].length = arrOut[i] := hz.2.get hi hi'
  have key : ∀ n ∈ arrOut, 86 ≤ n ∧ n ≤ 90 := by decide
  have := key _ (List.getElem_mem hi')
  rw [e]
  exact ⟨this.1, this.2, fun build => parmDecrypt_too_long ck build (by omega)⟩

/-- **C58**, `nn_demo` in the release build: whatever 16 inputs of 11 bits it is given, for all keys and randomness, it ends
with the error that a ciphertext is too long for decryption. -/
theorem C58_nn_demo (st : Setting S ck pc B D) (hs : Shipped pc) (seed : Nat → Nat → Nat) {mIn : List Int}
    (hn : mIn.length = 16) (hm : ∀ m ∈ mIn, m.natAbs < 2 ^ 11) :
    Fails (nnDemo S ck pc seed arrhythmiaNn mIn) (.err .ctTooLong) := by
  obtain ⟨cs, hc, hf⟩ := demoEncrypt_spec st seed (mIn.map fun m => (m, 11)) 0 (by
    intro mw h
    obtain ⟨m, h', rfl⟩ := List.mem_map.mp h
    have := hm m h'
    simp only
    omega)
  rw [List.forall₂_map_right_iff] at hf
  have hv : List.Forall₂ (fun x v => Valid ck B x v) cs mIn := by
    refine List.forall₂_of_length_eq_of_get hf.length_eq fun i h1 h2 => ?_
    have := (hf.get h1 h2).2.1
    rwa [truncTo_small (hm _ (List.get_mem _ _))] at this
  obtain ⟨zs, n, hz, -, hl, hd⟩ := C58_arrhythmia st hs hv (by rw [hf.length_eq, hn]) (by
    intro x hx
    obtain ⟨i, hi, rfl⟩ := List.getElem_of_mem hx
    have := hf.get hi (by rw [← hf.length_eq]; exact hi)
    exact ⟨this.1, this.2.2⟩)
  obtain ⟨ps, k, hp, -⟩ := plain_release arrhythmiaNn mIn
  rw [← hs.1] at hp
  refine hc.bind_fails (hz.bind_fails (hp.bind_fails (Fails.bind ?_)))
  rcases zs with _ | ⟨z, zs⟩
  · simp at hl
  · exact demoDecrypt_fails (as := []) (fun _ h => absurd h (by simp)) (by have := (hd z (by simp)).1; omega)

/-- a loop over weights does not return if one of its scalar multiplications never does -/
theorem affineLoop_never {T : Type} {A : Arith T} : ∀ {w : List Int} {a : List T} {r : T} {i : Nat} {k : Int} {x : T},
    w[i]? = some k → a[i]? = some x → Ensures (A.scalarMul k x) (fun _ => False) →
    Ensures (affineLoop A w a r) fun _ => False
  | [], _, _, _, _, _, h, _, _ => by simp at h
  | _ :: _, [], _, _, _, _, _, h, _ => by simp at h
  | _ :: w, _ :: a, r, 0, k, x, h1, h2, h => by
    simp only [List.getElem?_cons_zero, Option.some.injEq] at h1 h2
    subst h1 h2
    exact h.bind fun _ h => h.elim
  | _ :: w, _ :: a, r, i + 1, k, x, h1, h2, h => by
    simp only [List.getElem?_cons_succ] at h1 h2
    exact (Ensures.trivial _).bind fun _ _ => (Ensures.trivial _).bind fun _ _ => affineLoop_never h1 h2 h

theorem Fails.never {α : Type} {m : M α} {f : Fault} (h : Fails m f) : Ensures m fun _ => False := by
  intro s a s' e
  rw [h s] at e
  cases e

/-- **C58**, `nn_demo` in the debug build: it panics by overflow while evaluating the first perceptron, in the
multiplication by the weight −157. -/
theorem C58_nn_demo_debug (st : Setting S ck pc B D) (hb : pc.build = .debug) (ha : pc.asc = asc12) (seed : Nat → Nat → Nat)
    {mIn : List Int} (hn : mIn.length = 16) (hm : ∀ m ∈ mIn, m.natAbs < 2 ^ 11) :
    Fails (nnDemo S ck pc seed arrhythmiaNn mIn) (.panic .overflow) := by
  obtain ⟨cs, hc, hf⟩ := demoEncrypt_spec st seed (mIn.map fun m => (m, 11)) 0 (by
    intro mw h
    obtain ⟨m, h', rfl⟩ := List.mem_map.mp h
    have := hm m h'
    simp only
    omega)
  rw [List.forall₂_map_right_iff] at hf
  have hv : List.Forall₂ (fun x v => Valid ck B x v) cs mIn := by
    refine List.forall₂_of_length_eq_of_get hf.length_eq fun i h1 h2 => ?_
    have := (hf.get h1 h2).2.1
    rwa [truncTo_small (hm _ (List.get_mem _ _))] at this
  refine hc.bind_fails (Fails.bind ?_)
  have e : pc.withBuild .debug = pc := by rw [← hb]
  have h := C50_network_partial S pc arrhythmiaNn cs
  obtain ⟨zs, n, hz, -⟩ := C25_encrypted (st.withBuild .release) ⟨rfl, ha⟩ arrhythmia_range hv
  have never : Ensures (arrhythmiaNn.eval (arithCt S (pc.withBuild .debug)) cs) fun _ => False := by
    have hl : cs.length = 16 := by rw [hf.length_eq, hn]
    refine Ensures.bind (P := fun _ => False) (Ensures.bind (P := fun _ => False) (Ensures.bind (P := fun _ => False)
      (Ensures.bind (P := fun _ => False) (affineLoop_never (i := 8) (k := -157) (x := cs[8]) rfl (by simp) ?_)
      fun _ h => h.elim) fun _ h => h.elim) fun _ h => h.elim) fun _ h => h.elim
    have : Fails (ctScalarMul S (pc.withBuild .debug) (-157) cs[8]) (.panic .overflow) := fun _ => rfl
    exact this.never
  rcases h with h | ⟨a, a', m, g1, g2, _⟩ | ⟨_, g⟩
  · rwa [e] at h
  · obtain ⟨r, q, _, hr⟩ := g1 (St.init Sched.seq)
    exact (never _ _ _ hr).elim
  · obtain ⟨f, hf⟩ := g (St.init Sched.seq)
    obtain ⟨r, q, _, hr⟩ := hz (St.init Sched.seq)
    rw [hr] at hf
    cases hf

/-! ### Networks that do not panic in a debug build -/

/-- the recoding of `|k|` into windows does not overflow (by `C50_scalar_mul_windows`, multiplication by `k` does not panic in
a debug build) -/
def DebugSafe (k : Int) : Prop :=
  k.natAbs ≤ 90 ∨ ((windShifts .debug k.natAbs ascBitlen) (St.init Sched.seq)).toOption.isSome = true

/-- **C50**, multiplication by a scalar whose recoding does not overflow is exact in both builds. -/
theorem C50_scalar_mul_safe (st : Setting S ck pc B D) (ha : pc.asc = asc12) {k v : Int} (hk : -2 ^ 31 < k) (hk' : k < 2 ^ 31)
    (hd : DebugSafe k) {x : Ctxt S.C} (hx : Valid ck B x v) :
    Yields (ctScalarMul S pc k x) fun z => Valid ck B z (k * v) := by
  have hr := (C13_scalar_mul (st.withBuild .release) ⟨rfl, ha⟩ (k := k) (by omega) hk' hx).mono
    (Q := fun z => Valid ck B z (k * v)) fun _ h => h.1
  cases hb : pc.build with
  | release =>
    have e : pc.withBuild .release = pc := by rw [← hb]
    rwa [e] at hr
  | debug =>
    have e : pc.withBuild .debug = pc := by rw [← hb]
    have hs : SameOutcome (· = ·) (ctScalarMul S pc k x) (ctScalarMul S (pc.withBuild .release) k x) := by
      by_cases h90 : k.natAbs ≤ 90
      · have := C50_scalar_mul_small S pc h90 x
        rwa [e] at this
      · have := C50_scalar_mul_windows S pc (k := k) (by omega) (by omega) x
        rw [if_pos (hd.resolve_left h90)] at this
        rwa [e] at this
    obtain ⟨z, n, hz, hv⟩ := hr
    rcases hs with ⟨a, a', m, g1, g2, rfl⟩ | ⟨_, g⟩
    · obtain ⟨rfl, rfl⟩ := hz.unique g2
      exact ⟨_, _, g1, hv⟩
    · obtain ⟨f, hf⟩ := g (St.init Sched.seq)
      obtain ⟨r, q, _, hr⟩ := hz (St.init Sched.seq)
      rw [hr] at hf
      cases hf

/-- **C50**, networks all of whose weights are safe return the exact integer outputs in both builds. -/
theorem C50_network_safe (st : Setting S ck pc B D) (ha : pc.asc = asc12) {nn : NeuralNetwork}
    (hr : ∀ l ∈ nn.layers, ∀ p ∈ l, (∀ k ∈ p.w, -2 ^ 31 < k ∧ k < 2 ^ 31 ∧ DebugSafe k) ∧ -2 ^ 63 < p.b ∧ p.b < 2 ^ 63)
    {xs : List (Ctxt S.C)} {vs : List Int} (hx : List.Forall₂ (fun x v => Valid ck B x v) xs vs) :
    Yields (nn.eval (arithCt S pc) xs) fun zs => List.Forall₂ (fun z v => Valid ck B z v) zs (netZ nn.layers vs) :=
  nnEval_spec (Z := judgeYields) (R := fun x v => Valid ck B x v) (okB := fun b => -2 ^ 63 < b ∧ b < 2 ^ 63)
    (okW := fun k => -2 ^ 31 < k ∧ k < 2 ^ 31 ∧ DebugSafe k) (A := arithCt S pc)
    { zero := Valid.nil
      add := fun hx hy => (ctAdd_valid st hx hy).mono fun _ h => h.1
      addConst := fun hx hk => (ctAddConst_valid st hx hk.1 hk.2).mono fun _ h => h.1
      scalarMul := fun hk hx => C50_scalar_mul_safe st ha hk.1 hk.2.1 hk.2.2 hx
      max := fun hx hy => (ctMax_valid st hx hy).mono fun _ h => h.1
      relu := fun hx => (ctRelu_valid st hx).mono fun _ h => h.1 } nn hr hx

/-! ### The small network of the demos -/

theorem i64Op_small (b : Build) {x : Int} (h : -2 ^ 62 ≤ x ∧ x < 2 ^ 62) : i64Op b x = pure x := by
  unfold i64Op inI64
  rw [if_pos]
  simp only [Bool.and_eq_true, decide_eq_true_eq]
  omega

theorem demoNn_plain (build : Build) {a b c : Int} (ha : a.natAbs < 2 ^ 11) (hb : b.natAbs < 2 ^ 11) (hc : c.natAbs < 2 ^ 11) :
    Returns (demoNn.eval (arithI64 build) [a, b, c]) (netZ demoNn.layers [a, b, c]) 0 := by
  have key : ∃ l, Returns (demoNn.eval (arithI64 build) [a, b, c]) l 0 ∧ l = netZ demoNn.layers [a, b, c] := by
    simp only [demoNn, NeuralNetwork.eval, evalLayers, evalLayer, evalPerc, maxPool, affinePool, applyWeights, affineLoop,
      arithI64]
    simp (disch := omega) only [i64Op_small, pure_bind, List.length_cons, List.length_nil, maxPoolRecursion, maxChunks]
    have h1 : ∃ x, (if 1 * a ≤ -2 * b then -2 * b else 1 * a) = x ∧ x.natAbs < 2 ^ 12 := ⟨_, rfl, by split_ifs <;> omega⟩
    obtain ⟨x, hx, h1⟩ := h1
    have h2 : ∃ y, (if x ≤ -2 * c then -2 * c else x) = y ∧ y.natAbs < 2 ^ 12 := ⟨_, rfl, by split_ifs <;> omega⟩
    obtain ⟨y, hy, h2⟩ := h2
    rw [hx]
    rw [hy]
    refine ⟨_, Returns.pure _, ?_⟩
    have e1 : netZ [[⟨.MAX, [1, -2, -2], 2⟩, ⟨.LIN, [1, 3, -1], -5⟩, ⟨.ACT, [1, 3, -1], 3⟩]] [a, b, c] =
        [max (1 * a) (max (-2 * b) (-2 * c)) + 2, 1 * a + (3 * b + (-1 * c + 0)) + -5,
          max 0 (1 * a + (3 * b + (-1 * c + 0)) + 3)] := rfl
    rw [e1]
    simp only [List.cons.injEq, and_true]
    refine ⟨?_, ?_, ?_⟩
    · subst hx hy
      split_ifs <;> omega
    · omega
    · split_ifs <;> omega
  obtain ⟨l, h, rfl⟩ := key
  exact h

theorem demoNn_len (pc : Cloud) (hs : pc.asc = asc12) : Returns (demoNn.eval (arithLen pc) [11, 11, 11]) [13, 16, 16] 0 := by
  have key : ∀ b, Returns (demoNn.eval (arithLen { shippedCloud with build := b }) [11, 11, 11]) [13, 16, 16] 0 := by
    intro b
    refine Pure0.returns ((pure0_evalLayer _ _ _).bind fun _ => Pure0.pure _) ?_
    cases b <;> decide +kernel
  rw [arithLen_congr (pc := pc) (pc' := { shippedCloud with build := pc.build }) rfl hs]
  exact key pc.build

theorem demoNn_safe : ∀ l ∈ demoNn.layers, ∀ p ∈ l, (∀ k ∈ p.w, -2 ^ 31 < k ∧ k < 2 ^ 31 ∧ DebugSafe k) ∧
    -2 ^ 63 < p.b ∧ p.b < 2 ^ 63 := by
  have : ∀ l ∈ demoNn.layers, ∀ p ∈ l, (∀ k ∈ p.w, -2 ^ 31 < k ∧ k < 2 ^ 31 ∧ k.natAbs ≤ 90) ∧
    -2 ^ 63 < p.b ∧ p.b < 2 ^ 63 := by decide
  exact fun l hl p hp => ⟨fun k hk => ⟨((this l hl p hp).1 k hk).1, ((this l hl p hp).1 k hk).2.1,
    Or.inl ((this l hl p hp).1 k hk).2.2⟩, (this l hl p hp).2⟩

/-- **C58** (partial: for the shipped network it is false, see `C58_nn_demo`), with the small network `demo_nn` in place of `arrhythmia_nn` the demo says `PASS` for all three outputs: for all
three inputs of 11 bits, all keys and randomness, in both builds and under every schedule. -/
theorem C58_demo_nn_partial (st : Setting S ck pc B D) (hs : pc.asc = asc12) (seed : Nat → Nat → Nat) {a b c : Int}
    (ha : a.natAbs < 2 ^ 11) (hb : b.natAbs < 2 ^ 11) (hc : c.natAbs < 2 ^ 11) :
    Yields (nnDemo S ck pc seed demoNn [a, b, c]) fun r => r = [true, true, true] := by
  have hm : ∀ m ∈ [a, b, c], m.natAbs < 2 ^ 11 := by
    simp only [List.mem_cons, List.not_mem_nil, or_false, forall_eq_or_imp, forall_eq]
    exact ⟨ha, hb, hc⟩
  obtain ⟨cs, hc, hf⟩ := demoEncrypt_spec st seed ([a, b, c].map fun m => (m, 11)) 0 (by
    intro mw h
    obtain ⟨m, h', rfl⟩ := List.mem_map.mp h
    have := hm m h'
    simp only
    omega)
  rw [List.forall₂_map_right_iff] at hf
  have hv : List.Forall₂ (fun x v => Valid ck B x v) cs [a, b, c] := by
    refine List.forall₂_of_length_eq_of_get hf.length_eq fun i h1 h2 => ?_
    have := (hf.get h1 h2).2.1
    rwa [truncTo_small (hm _ (List.get_mem _ _))] at this
  have hl : List.Forall₂ (fun x n => Words n x) cs [11, 11, 11] := by
    have h3 : [11, 11, 11] = [a, b, c].map fun _ => 11 := rfl
    rw [h3, List.forall₂_map_right_iff]
    exact hf.imp fun x v h => ⟨h.1, fun w hw => (h.2.2 w (List.mem_of_getLast? hw)).1⟩
  obtain ⟨zs, n, hz, hzv, hzl⟩ := (C50_network_safe st hs demoNn_safe hv).and_ensures
    (C57_network st.msgMod st.bitPrecision demoNn hl (demoNn_len pc hs))
  have hd := demoDecrypt_returns st hzv (by
    intro z hz
    obtain ⟨i, hi, rfl⟩ := List.getElem_of_mem hz
    have hi' : i < [13, 16, 16].length := by rw [← hzl.length_eq]; exact hi
    have e : zs[i].length = [13, 16, 16][i] := (hzl.get hi hi').1
    have key : ∀ n ∈ [13, 16, 16], n ≤ 63 := by decide
    rw [e]
    exact key _ (List.getElem_mem hi'))
  refine ⟨_, _, hc.bind (hz.bind ((demoNn_plain pc.build ha hb ‹_›).bind (hd.bind (Returns.pure _)))), ?_⟩
  simp [demoNn, netZ]

/-! ### The verdicts -/

theorem verdicts_get {es ms : List Int} (h : es.length = ms.length) {i : Nat} (hi : i < es.length) :
    ∃ b, (List.zipWith (fun e m => e == m) es ms)[i]? = some b ∧ (b = true ↔ es[i]? = ms[i]?) := by
  have hi' : i < ms.length := h ▸ hi
  refine ⟨es[i] == ms[i], ?_, ?_⟩
  · rw [List.getElem?_eq_getElem (by simpa using ⟨hi, hi'⟩), List.getElem_zipWith]
  · rw [List.getElem?_eq_getElem hi, List.getElem?_eq_getElem hi', Option.some.injEq, beq_iff_eq]

/-- **C58**, the verdicts of `arith_demo`: whatever scheme, keys and cloud, if evaluation and decryption return 19 numbers, each line
says `PASS` exactly if its number is the expected one. -/
theorem C58_arith_verdicts {seed : Nat → Nat → Nat} {zs : List (Ctxt S.C)} {ms : List Int} {n k : Nat}
    (hz : Returns (arithDemoEval S ck pc seed) zs n) (hm : Returns (demoDecrypt ck pc zs) ms k) (hl : ms.length = 19) :
    ∃ bs, Returns (arithDemo S ck pc seed) bs (n + k) ∧ bs.length = 19 ∧
      ∀ i, i < 19 → (bs[i]? = some true ↔ ms[i]? = arithDemoExp[i]?) := by
  have he : arithDemoExp.length = 19 := rfl
  have hr : Returns (arithDemo S ck pc seed) (List.zipWith (fun e m => e == m) arithDemoExp ms) (n + (k + 0)) :=
    hz.bind (hm.bind (Returns.pure _))
  refine ⟨_, hr, by simp [he, hl], fun i hi => ?_⟩
  obtain ⟨b, hb, hb'⟩ := verdicts_get (he.trans hl.symm) (i := i) (by omega)
  rw [hb, Option.some.injEq, hb', eq_comm]

/-- **C58**, the verdicts of `nn_demo`: for every network, if encryption, both evaluations and decryption return, each output says
`PASS` exactly if the decrypted number is the one computed on plain numbers. -/
theorem C58_nn_verdicts {seed : Nat → Nat → Nat} {nn : NeuralNetwork} {mIn ps ms : List Int} {cs zs : List (Ctxt S.C)} {a b c d : Nat}
    (hc : Returns (demoEncrypt ck pc seed 0 (mIn.map fun m => (m, 11))) cs a) (hz : Returns (nn.eval (arithCt S pc) cs) zs b)
    (hp : Returns (nn.eval (arithI64 pc.build) mIn) ps c) (hm : Returns (demoDecrypt ck pc zs) ms d) (hl : ms.length = ps.length) :
    ∃ bs n, Returns (nnDemo S ck pc seed nn mIn) bs n ∧ bs.length = ps.length ∧
      ∀ i, i < ps.length → (bs[i]? = some true ↔ ms[i]? = ps[i]?) := by
  refine ⟨List.zipWith (fun h p => h == p) ms ps, _, hc.bind (hz.bind (hp.bind (hm.bind (Returns.pure _)))), by simp [hl],
    fun i hi => ?_⟩
  obtain ⟨b, hb, hb'⟩ := verdicts_get hl (i := i) (by omega)
  rw [hb, Option.some.injEq, hb']

end

/-! ### Cases -/

/-- Case: the demo instance meets the hypotheses, in both builds. -/
example (build : Build) (seed : Nat → Nat → Nat) :
    Fails (arithDemo Demo.scheme Demo.ck { Demo.cloud with asc := asc12, build := build } seed) (.err .ctTooLong) :=
  C58_arith_demo (Demo.setting asc12 build) rfl rfl seed

example (build : Build) (seed : Nat → Nat → Nat) :
    Yields (arithDemoEval Demo.scheme Demo.ck { Demo.cloud with asc := asc12, build := build } seed) fun zs => zs.length = 19 ∧
      ∀ i (h : i < zs.length), if i = 10 ∨ i = 15 then Fails (parmDecrypt Demo.ck build zs[i]) (.err .ctTooLong)
        else Returns (parmDecrypt Demo.ck build zs[i]) (arithDemoExp.getD i 0) 0 :=
  C58_arith_demo_lines_partial (Demo.setting asc12 build) rfl rfl seed

/-- Case: the inputs of `nn_demo` are 16 numbers of at most 11 bits. -/
example (seed : Nat → Nat → Nat) :
    Fails (nnDemo Demo.scheme Demo.ck Demo.cloud12 seed arrhythmiaNn nnDemoIn) (.err .ctTooLong) :=
  C58_nn_demo Demo.st12 Demo.shipped12 seed rfl (by decide)

example (seed : Nat → Nat → Nat) :
    Fails (nnDemo Demo.scheme Demo.ck { Demo.cloud with asc := asc12, build := .debug } seed arrhythmiaNn nnDemoIn)
      (.panic .overflow) :=
  C58_nn_demo_debug (Demo.setting asc12 .debug) rfl rfl seed rfl (by decide)

/-- Case: the small network on −1000, 7 and 2047, in both builds. -/
example (build : Build) (seed : Nat → Nat → Nat) :
    Yields (nnDemo Demo.scheme Demo.ck { Demo.cloud with asc := asc12, build := build } seed demoNn [-1000, 7, 2047])
      fun r => r = [true, true, true] :=
  C58_demo_nn_partial (Demo.setting asc12 build) rfl seed (by decide) (by decide) (by decide)

/-- Case: 4095 is safe, 91 and 157 are not. -/
example : DebugSafe 4095 ∧ ¬ DebugSafe 91 ∧ ¬ DebugSafe (-157) := by
  unfold DebugSafe
  decide +kernel

end Parm
