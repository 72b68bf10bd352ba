import Verif.Model.Tests
import Verif.Props.Demos
import Verif.Props.Plain

/-!
# The test-suite: proofs
-/

namespace Parm
variable {S : Scheme} {ck : ClientKey S} {pc : Cloud} {B D : Nat}

theorem M.check_pass {p : Prop} [Decidable p] (h : p) : Yields (M.check p) fun _ => True := by
  unfold M.check
  rw [if_pos h]
  exact Yields.pure trivial

/-- a step with a known result, then the rest -/
theorem Yields.step {α β : Type} {m : M α} {a : α} {n : Nat} {f : α → M β} {Q : β → Prop} (h : Returns m a n)
    (hf : Yields (f a) Q) : Yields (m >>= f) Q :=
  Yields.bind (h.yields rfl) (by rintro _ rfl; exact hf)

theorem DrawnVec.digits {len : Nat} {v : List Int} (h : DrawnVec len v) : ∀ d ∈ v, IsDigit d := fun d hd => by
  have := h.2 d hd
  unfold IsDigit
  omega

theorem DrawnUpTo.digits {len : Nat} {v : List Int} (h : DrawnUpTo len v) : ∀ d ∈ v, IsDigit d := by
  obtain ⟨_, _, h⟩ := h
  exact h.digits

theorem DrawnUpTo.length_le {len : Nat} {v : List Int} (h : DrawnUpTo len v) : v.length ≤ len := by
  obtain ⟨l, h1, h2⟩ := h
  rw [h2.1]
  exact h1

theorem encryptOne_enc (st : Setting S ck pc B D) (seed : Nat) (f : Bool) (m : Int) :
    WordEnc ck B (encryptOne ck pc seed f m) m 1 := by
  unfold encryptOne
  cases f
  · exact WordEnc.triv st m 1
  · exact encryptWord_spec st seed m

theorem encryptFlags_length (seed : Nat → Nat) : ∀ (j : Nat) (v : List Int) (f : List Bool),
    (encryptFlags ck pc seed j v f).length = v.length
  | _, [], _ => by simp [encryptFlags, trivCt]
  | _, _ :: _, [] => by simp [encryptFlags, trivCt]
  | j, _ :: v, _ :: f => by simp [encryptFlags, encryptFlags_length seed (j + 1) v f]

theorem encryptFlags_valid (st : Setting S ck pc B D) (seed : Nat → Nat) : ∀ (j : Nat) (v : List Int) (f : List Bool),
    (∀ d ∈ v, IsDigit d) → f.length = v.length → Valid ck B (encryptFlags ck pc seed j v f) (value v)
  | _, [], _, _, _ => by
    simp only [encryptFlags, List.length_nil, trivCt, List.replicate_zero]
    exact Valid.nil
  | _, _ :: _, [], _, h => by simp at h
  | j, d :: v, b :: f, hd, hl => by
    unfold encryptFlags
    rw [value_cons]
    have hw : WordEnc ck B (if b then encryptWord ck pc.msgMod (seed j) d else encryptWordTriv S.C pc d) d 1 :=
      encryptOne_enc st (seed j) b d
    exact Valid.cons hw (hd d (by simp)) (encryptFlags_valid st seed (j + 1) v f (fun a ha => hd a (by simp [ha])) (by simpa using hl))

theorem convertVec_ok {v : List Int} (hl : v.length ≤ 63) (h : ∀ d ∈ v, IsDigit d) :
    Returns (convertVec pc v) (value v) 0 := (convertFromVec_ok pc.build hl h).expect

theorem decryptCt_ok (st : Setting S ck pc B D) {x : Ctxt S.C} {v : Int} (h : Valid ck B x v) (hl : x.length ≤ 63) :
    Returns (decryptCt ck pc x) v 0 := (h.decrypt st pc.build hl).expect

theorem value_isI64 {v : List Int} (hl : v.length ≤ 63) (h : ∀ d ∈ v, IsDigit d) : IsI64 (value v) := by
  have h1 := value_abs_lt h
  have h2 : 2 ^ v.length ≤ 2 ^ 63 := Nat.pow_le_pow_right (by norm_num) hl
  unfold IsI64
  omega

theorem Valid.isI64 {x : Ctxt S.C} {v : Int} (h : Valid ck B x v) (hl : x.length ≤ 63) : IsI64 v := by
  have h1 := h.abs_lt
  have h2 : 2 ^ x.length ≤ 2 ^ 63 := Nat.pow_le_pow_right (by norm_num) hl
  unfold IsI64
  omega

/-! ### One and two registers -/

theorem RegsOk.one {x : Ctxt S.C} {v : Int} (h : Valid ck B x v) : RegsOk ck B [x] [v] [x.length] := by
  refine ⟨rfl, rfl, fun i hi => ?_⟩
  have : i = 0 := by simpa using hi
  subst this
  exact ⟨h, le_refl _⟩

theorem RegsOk.two {x y : Ctxt S.C} {v u : Int} (h : Valid ck B x v) (h' : Valid ck B y u) :
    RegsOk ck B [x, y] [v, u] [x.length, y.length] := by
  refine ⟨rfl, rfl, fun i hi => ?_⟩
  have : i = 0 ∨ i = 1 := by simp at hi; omega
  rcases this with rfl | rfl
  · exact ⟨h, le_refl _⟩
  · exact ⟨h', le_refl _⟩

/-- the encrypted operation, its decryption, the plaintext operation and the comparison -/
theorem op_check (st : Setting S ck pc B D) {xs : List (Ctxt S.C)} {vs : List Int} {l : Nat} {ins : Instr}
    (hrun : Yields (ins.run (arithCt S pc) xs) (fun z => Valid ck B z (ins.val vs) ∧ z.length ≤ l)) (hl : l ≤ 63)
    (hv : ∀ v ∈ vs, IsI64 v) (hwf : ins.wf vs.length) (hp : ins.i64Positions) :
    Yields (do
      let c ← ins.run (arithCt S pc) xs
      let m ← decryptCt ck pc c
      let p ← ins.run (arithI64 pc.build) vs
      M.check (m = p)) fun _ => True := by
  refine Yields.bind hrun fun z hz => ?_
  have hz63 : z.length ≤ 63 := hz.2.trans hl
  refine Yields.step (decryptCt_ok st hz.1 hz63) ?_
  exact Yields.step (C49_exact pc.build ins hv hwf hp (hz.1.isI64 hz63)) (M.check_pass rfl)

/-! ### Words -/

theorem decryptMu_spec {w : Word S.C} {m : Int} {k : Nat} (h : WordEnc ck B w m k) (hk : k * B < 2 ^ 58) :
    ∃ n : Nat, Returns (decryptMu (some ck) w) n 0 ∧ (n : Int) = m % 32 := by
  obtain ⟨wc, wm⟩ := w
  obtain ⟨h1, h2⟩ := h
  simp only at h1
  subst h1
  unfold decryptMu
  cases wc with
  | ct c =>
    obtain ⟨e, he, hp⟩ := h2
    refine ⟨_, Returns.pure _, ?_⟩
    unfold ClientKey.decrypt
    rw [hp]
    exact ptToMu32 m e (by omega)
  | triv p =>
    simp only at h2
    refine ⟨_, Returns.pure _, ?_⟩
    have := ptToMu32 m 0 (by norm_num)
    rw [h2]
    simpa using this

theorem checkWord_pass (st : Setting S ck pc B D) {w : Word S.C} {m : Int} {k : Nat} (h : WordEnc ck B w m k)
    (hk : k ≤ 8) : Yields (checkWord ck pc w m) fun _ => True := by
  obtain ⟨n, h1, h2⟩ := decryptMu_spec h (by have := st.tol8 hk; omega)
  unfold checkWord
  refine Yields.step h1.expect (M.check_pass ?_)
  rw [h2]
  unfold Params.plaintextSpaceSize
  rw [st.bitPrecision]
  norm_num

theorem addHalf_twice (st : Setting S ck pc B D) {w : Word S.C} {m : Int} (h : WordEnc ck B w m 1) :
    WordEnc ck B (Word.mulConst S (Word.addHalf S w) 2) (m * 2 + 1) 2 := by
  rw [wordEnc_iff] at *
  have := (Enc2.addHalf st.sound h).mulConst st.sound 2 (by norm_num)
  rw [show 2 * (m * 2 + 1) = 2 * (2 * m + 1) by ring]
  exact this

/-! ### Networks -/

/-- Operations that implement the integer operations on numbers of at most `n` words (or bits), with the growth of `n`. -/
structure Levels {T : Type} (A : Arith T) (R : Nat → T → Int → Prop) (okW okB : Int → Prop) : Prop where
  zero : R 0 A.zero 0
  mono : ∀ {m n x v}, R m x v → m ≤ n → R n x v
  add : ∀ {n x y v u}, R n x v → R n y u → n ≤ 62 → Yields (A.add x y) fun z => R (n + 1) z (v + u)
  addConst : ∀ {n x v k}, R n x v → okB k → 4 ≤ n → n ≤ 62 → Yields (A.addConst x k) fun z => R (n + 1) z (v + k)
  scalarMul : ∀ {n x v k}, okW k → R n x v → n ≤ 52 → Yields (A.scalarMul k x) fun z => R (n + 10) z (k * v)
  max : ∀ {n x y v u}, R n x v → R n y u → Yields (A.max x y) fun z => R n z (Max.max v u)
  relu : ∀ {n x v}, R n x v → Yields (A.relu x) fun z => R n z (Max.max 0 v)

section
variable {T : Type} {A : Arith T} {R : Nat → T → Int → Prop} {okW okB : Int → Prop}

theorem Levels.affineLoop (L : Levels A R okW okB) {n : Nat} (hn : n ≤ 52) : ∀ (w : List Int) (a : List T) (vs : List Int),
    (∀ k ∈ w, okW k) → List.Forall₂ (R n) a vs → ∀ {l : Nat} {res : T} {r : Int}, R l res r → n + 10 ≤ l →
    l + w.length ≤ 63 → Yields (affineLoop A w a res) fun z => R (l + w.length) z (r + dotZ w vs)
  | [], a, vs, _, _, l, res, r, hr, _, _ => by
    unfold Parm.affineLoop
    exact Yields.pure (by simpa [dotZ] using hr)
  | k :: w, [], _, _, .nil, l, res, r, hr, _, _ => by
    unfold Parm.affineLoop
    exact Yields.pure (by simpa [dotZ] using L.mono hr (Nat.le_add_right _ _))
  | k :: w, x :: a, v :: vs, hw, .cons hx ha, l, res, r, hr, h1, h2 => by
    unfold Parm.affineLoop
    simp only [List.length_cons] at h2 ⊢
    refine Yields.bind (L.scalarMul (hw k (by simp)) hx hn) fun scm hs => ?_
    refine Yields.bind (L.add hr (L.mono hs h1) (by omega)) fun agg hg => ?_
    refine (L.affineLoop hn w a vs (fun k hk => hw k (by simp [hk])) ha hg (by omega) (by omega)).mono fun z hz => ?_
    simp only [dotZ]
    rw [← add_assoc r]
    exact L.mono hz (by omega)

theorem Levels.affinePool (L : Levels A R okW okB) {n : Nat} (hn : n ≤ 47) {w : List Int} {a : List T} {vs : List Int} {b : Int}
    (hw : ∀ k ∈ w, okW k) (hl : w.length ≤ 5) (hb : okB b) (ha : List.Forall₂ (R n) a vs) :
    Yields (affinePool A w a b) fun z => R (n + 16) z (dotZ w vs + b) := by
  unfold Parm.affinePool
  refine Yields.bind (L.affineLoop (by omega) w a vs hw ha (L.mono (n := n + 10) L.zero (by omega)) (le_refl _) (by omega))
    fun res hr => ?_
  rw [zero_add] at hr
  exact L.addConst (n := n + 15) (L.mono hr (by omega)) hb (by omega) (by omega)

theorem Levels.applyWeights (L : Levels A R okW okB) {n : Nat} (hn : n ≤ 52) : ∀ (w : List Int) (a : List T) (vs : List Int),
    (∀ k ∈ w, okW k) → List.Forall₂ (R n) a vs →
    Yields (applyWeights A w a) fun z => List.Forall₂ (R (n + 10)) z (List.zipWith (· * ·) w vs)
  | [], a, vs, _, _ => by
    unfold Parm.applyWeights
    exact Yields.pure (by simp)
  | k :: w, [], _, _, .nil => by
    unfold Parm.applyWeights
    exact Yields.pure (by simp)
  | k :: w, x :: a, v :: vs, hw, .cons hx ha => by
    unfold Parm.applyWeights
    refine Yields.bind (L.scalarMul (hw k (by simp)) hx hn) fun s hs => ?_
    refine Yields.bind (L.applyWeights hn w a vs (fun k hk => hw k (by simp [hk])) ha) fun ss hss => ?_
    exact Yields.pure (.cons hs hss)

theorem Levels.maxChunks (L : Levels A R okW okB) {n : Nat} : ∀ (a : List T) (vs : List Int),
    List.Forall₂ (R n) a vs → Yields (maxChunks A a) fun z => List.Forall₂ (R n) z (chunksZ vs)
  | [], _, .nil => by unfold Parm.maxChunks; exact Yields.pure .nil
  | [x], [v], .cons hx .nil => by unfold Parm.maxChunks; exact Yields.pure (.cons hx .nil)
  | x :: y :: a, v :: u :: vs, .cons hx (.cons hy ha) => by
    unfold Parm.maxChunks
    refine Yields.bind (L.max hx hy) fun m hm => ?_
    refine Yields.bind (L.maxChunks a vs ha) fun ms hms => ?_
    exact Yields.pure (.cons hm hms)

theorem Levels.maxPoolRecursion (L : Levels A R okW okB) {n : Nat} : ∀ (fuel : Nat) (a : List T) (vs : List Int),
    List.Forall₂ (R n) a vs → a.length ≤ fuel → Yields (maxPoolRecursion A fuel a) fun z => R n z (maxZ vs)
  | _, [], _, .nil, _ => by unfold Parm.maxPoolRecursion; exact Yields.pure (L.mono L.zero (by omega))
  | _, [x], [v], .cons hx .nil, _ => by unfold Parm.maxPoolRecursion; exact Yields.pure hx
  | 0, x :: y :: a, _, _, h => by simp at h
  | fuel + 1, x :: y :: a, v :: u :: vs, h, hl => by
    unfold Parm.maxPoolRecursion
    refine Yields.bind (L.maxChunks _ _ h) fun m hm => ?_
    rw [← maxZ_chunks]
    refine L.maxPoolRecursion fuel m _ hm ?_
    have e := h.length_eq
    have := hm.length_eq
    rw [length_chunksZ] at this
    simp only [List.length_cons] at *
    omega

theorem Levels.evalPerc (L : Levels A R okW okB) {n : Nat} (hn : n ≤ 47) {p : Perceptron} (hp : PercOk okW okB p)
    (hl : p.w.length ≤ 5) {a : List T} {vs : List Int} (ha : List.Forall₂ (R n) a vs) :
    Yields (evalPerc A p a) fun z => R (n + 16) z (percZ p vs) := by
  unfold Parm.evalPerc percZ
  cases p.t with
  | MAX =>
    dsimp only
    unfold Parm.maxPool
    refine Yields.bind (L.applyWeights (by omega) p.w a vs hp.1 ha) fun wa hwa => ?_
    refine Yields.bind (L.maxPoolRecursion _ wa _ hwa (le_refl _)) fun r hr => ?_
    exact (L.addConst hr hp.2 (by omega) (by omega)).mono fun z hz => L.mono hz (by omega)
  | LIN => exact L.affinePool hn hp.1 hl hp.2 ha
  | ACT => exact Yields.bind (L.affinePool hn hp.1 hl hp.2 ha) fun r hr => L.relu hr

theorem Levels.evalLayer (L : Levels A R okW okB) {n : Nat} (hn : n ≤ 47) {a : List T} {vs : List Int}
    (ha : List.Forall₂ (R n) a vs) : ∀ (ps : List Perceptron), (∀ p ∈ ps, PercOk okW okB p ∧ p.w.length ≤ 5) →
    Yields (evalLayer A ps a) fun z => List.Forall₂ (R (n + 16)) z (ps.map fun p => percZ p vs)
  | [], _ => by unfold Parm.evalLayer; exact Yields.pure .nil
  | p :: ps, hp => by
    unfold Parm.evalLayer
    refine Yields.bind (L.evalPerc hn (hp p (by simp)).1 (hp p (by simp)).2 ha) fun o ho => ?_
    refine Yields.bind (L.evalLayer hn ha ps fun q hq => hp q (by simp [hq])) fun os hos => ?_
    exact Yields.pure (.cons ho hos)

theorem Levels.evalLayers (L : Levels A R okW okB) : ∀ (ls : List (List Perceptron)) (il ol : List T) (vs : List Int) {n : Nat},
    ls ≠ [] → n + 16 * ls.length ≤ 63 → (∀ l ∈ ls, ∀ p ∈ l, PercOk okW okB p ∧ p.w.length ≤ 5) → List.Forall₂ (R n) il vs →
    Yields (evalLayers A ls il ol) fun z => List.Forall₂ (R 63) z (netZ ls vs)
  | [l], il, ol, vs, n, _, hn, hp, ha => by
    simp only [List.length_cons, List.length_nil] at hn
    unfold Parm.evalLayers
    refine Yields.bind (L.evalLayer (by omega) ha l (hp l (by simp))) fun o ho => ?_
    unfold Parm.evalLayers
    exact Yields.pure (ho.imp fun a b h => L.mono h (by omega))
  | l :: l' :: ls, il, ol, vs, n, _, hn, hp, ha => by
    simp only [List.length_cons] at hn
    unfold Parm.evalLayers
    refine Yields.bind (L.evalLayer (by omega) ha l (hp l (by simp))) fun o ho => ?_
    exact L.evalLayers (l' :: ls) o o _ (by simp) (by simp only [List.length_cons]; omega)
      (fun k hk => hp k (by simp only [List.mem_cons] at *; tauto)) ho

end

/-- the weights of the test networks -/
def SmallW (k : Int) : Prop := -7 ≤ k ∧ k ≤ 7

/-- the biases of the test networks -/
def SmallB (b : Int) : Prop := -15 ≤ b ∧ b ≤ 15

/-- multiplication with its length, in both builds -/
theorem scalarMul_safe (st : Setting S ck pc B D) (ha : pc.asc = asc12) {k v : Int} (hk : -2 ^ 31 < k) (hk' : k < 2 ^ 31)
    (hd : pc.build = .release ∨ DebugSafe k) {x : Ctxt S.C} (hx : Valid ck B x v) {l : Nat} (hl : k.natAbs < 2 ^ l) :
    Yields ((arithCt S pc).scalarMul k x) fun z => Valid ck B z (k * v) ∧ z.length ≤ x.length + l + 7 := by
  rw [arithCt_scalarMul]
  have hr := (ctScalarMul_valid (st.withBuild .release) rfl (by show TableOk pc.asc; rw [ha]; exact asc12_tableOk) (k := k)
    (by omega) hk' hx).mono (Q := fun z => Valid ck B z (k * v) ∧ z.length ≤ x.length + l + 7) fun _ h => ⟨h.1, h.2 l hl⟩
  cases hb : pc.build with
  | release =>
    have e : pc.withBuild .release = pc := by rw [← hb]
    rwa [e] at hr
  | debug =>
    have hd : DebugSafe k := hd.resolve_left (by rw [hb]; decide)
    have e : pc.withBuild .debug = pc := by rw [← hb]
    obtain ⟨z, n, hz, -⟩ := C50_scalar_mul_safe st ha hk hk' hd hx
    have h := C50_scalar_mul_partial S pc k x
    rw [e] at h
    obtain ⟨z', n', hz', hv⟩ := hr
    rcases h with h | ⟨a, a', m, g1, g2, rfl⟩ | ⟨g, _⟩
    · exact absurd h fun h => hz.not_fails h
    · obtain ⟨rfl, rfl⟩ := hz'.unique g2
      exact ⟨_, _, g1, hv⟩
    · obtain ⟨f, hf⟩ := g (St.init Sched.seq)
      obtain ⟨r, q, _, hr⟩ := hz (St.init Sched.seq)
      rw [hr] at hf
      cases hf

theorem levels_ct (st : Setting S ck pc B D) (ha : pc.asc = asc12) :
    Levels (arithCt S pc) (fun n x v => Valid ck B x v ∧ x.length ≤ n) SmallW SmallB where
  zero := ⟨Valid.nil, le_refl _⟩
  mono h hmn := ⟨h.1, h.2.trans hmn⟩
  add hx hy _ := (ctAdd_valid st hx.1 hy.1).mono fun z hz => ⟨hz.1, by have := hx.2; have := hy.2; have := hz.2; omega⟩
  addConst {n x v k} hx hk h4 _ := (ctAddConst_valid st hx.1 (by have := hk.1; omega) (by have := hk.2; omega)).mono fun z hz =>
    ⟨hz.1, by
      have := hz.2 4 (by have := hk.1; have := hk.2; omega)
      have := hx.2
      omega⟩
  scalarMul {n x v k} hk hx _ := (scalarMul_safe st ha (by have := hk.1; omega) (by have := hk.2; omega)
    (Or.inr (Or.inl (by have := hk.1; have := hk.2; omega))) hx.1 (l := 3) (by have := hk.1; have := hk.2; omega)).mono
      fun z hz => ⟨hz.1, by have := hx.2; have := hz.2; omega⟩
  max hx hy := (ctMax_valid st hx.1 hy.1).mono fun z hz => ⟨hz.1, by have := hx.2; have := hy.2; have := hz.2; omega⟩
  relu hx := (ctRelu_valid st hx.1).mono fun z hz => ⟨hz.1, by have := hx.2; have := hz.2; omega⟩

theorem pow_isI64 {n : Nat} {v : Int} (hn : n ≤ 63) (h : v.natAbs < 2 ^ n) : IsI64 v := by
  have h2 : 2 ^ n ≤ 2 ^ 63 := Nat.pow_le_pow_right (by norm_num) hn
  unfold IsI64
  omega

theorem levels_i64 (b : Build) : Levels (arithI64 b) (fun n x v => x = v ∧ v.natAbs < 2 ^ n) SmallW SmallB where
  zero := ⟨rfl, by norm_num⟩
  mono h hmn := ⟨h.1, h.2.trans_le (Nat.pow_le_pow_right (by norm_num) hmn)⟩
  add {n x y v u} hx hy hn := by
    obtain ⟨rfl, h1⟩ := hx
    obtain ⟨rfl, h2⟩ := hy
    have h3 : (x + y).natAbs < 2 ^ (n + 1) := by rw [pow_succ]; omega
    exact ⟨_, _, i64Op_fits b (pow_isI64 (by omega) h3), rfl, h3⟩
  addConst {n x v k} hx hk h4 hn := by
    obtain ⟨rfl, h1⟩ := hx
    have h2 : 2 ^ 4 ≤ 2 ^ n := Nat.pow_le_pow_right (by norm_num) h4
    have h3 : (x + k).natAbs < 2 ^ (n + 1) := by
      have := hk.1; have := hk.2
      rw [pow_succ]; omega
    exact ⟨_, _, i64Op_fits b (pow_isI64 (by omega) h3), rfl, h3⟩
  scalarMul {n x v k} hk hx hn := by
    obtain ⟨rfl, h1⟩ := hx
    have h3 : (k * x).natAbs < 2 ^ (n + 10) := by
      have := hk.1; have := hk.2
      rw [Int.natAbs_mul]
      calc k.natAbs * x.natAbs ≤ 7 * x.natAbs := Nat.mul_le_mul_right _ (by omega)
        _ < 2 ^ (n + 10) := by rw [pow_add]; omega
    exact ⟨_, _, i64Op_fits b (pow_isI64 (by omega) h3), rfl, h3⟩
  max {n x y v u} hx hy := by
    obtain ⟨rfl, h1⟩ := hx
    obtain ⟨rfl, h2⟩ := hy
    exact Yields.pure ⟨by rw [max_def], by omega⟩
  relu {n x v} hx := by
    obtain ⟨rfl, h1⟩ := hx
    exact Yields.pure ⟨by rw [max_def], by omega⟩

end Parm
