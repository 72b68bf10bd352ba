import Verif.Proof.DemoLens
import Verif.Props.Builds
import Verif.Props.DepthExact
import Verif.Props.Lengths

/-!
# Helpers for the demos (property C58)
-/

namespace Parm

section
variable {S : Scheme} {ck : ClientKey S} {pc : Cloud} {B D : Nat}

theorem Setting.withBuild (st : Setting S ck pc B D) (b : Build) : Setting S ck (pc.withBuild b) B D :=
  ⟨st.msgMod, st.carryMod, st.bitPrecision, st.polySize, st.sound, st.tolerance⟩

/-! ### Encryption and decryption of lists -/

/-- the value an encryption of `m` in `w` words holds: the low `w` bits of `|m|`, with the sign of `m` -/
def truncTo (m : Int) (w : Nat) : Int := m.sign * ((m.natAbs % 2 ^ w : Nat) : Int)

theorem demoEncrypt_spec (st : Setting S ck pc B D) (seed : Nat → Nat → Nat) : ∀ (ms : List (Int × Nat)) (i : Nat),
    (∀ mw ∈ ms, -2 ^ 63 < mw.1 ∧ mw.1 < 2 ^ 63 ∧ mw.2 ≤ 63) →
    ∃ cs, Returns (demoEncrypt ck pc seed i ms) cs 0 ∧
      List.Forall₂ (fun c mw => c.length = mw.2 ∧ Valid ck B c (truncTo mw.1 mw.2) ∧ AllEncrypted c) cs ms
  | [], _, _ => ⟨[], Returns.pure _, .nil⟩
  | (m, w) :: ms, i, h => by
    obtain ⟨h1, h2, h3⟩ := h (m, w) (by simp)
    dsimp only at h1 h2 h3
    obtain ⟨x, n, hx, hl, hv, ht⟩ := parmEncrypt_valid st pc.build (seed i) h1 h2 (w := w) (by omega)
    have hn : n = 0 := by
      have h0 : Returns (parmEncrypt ck pc.msgMod pc.build (seed i) m w) _ 0 :=
        (convertToVec_spec pc.build h1 h2 (by omega)).bind0
          (parmEncryptFromVec_ok (seed i) pc.msgMod _ 0 (by
            intro d hd
            obtain ⟨i, _, rfl⟩ := List.mem_map.1 hd
            exact bitDigit_isDigit m i))
      exact (hx.unique h0).2
    subst hn
    obtain ⟨cs, hc, hf⟩ := demoEncrypt_spec st seed ms (i + 1) fun mw hm => h mw (by simp [hm])
    refine ⟨x :: cs, hx.bind0 (hc.bind0 (Returns.pure _)), .cons ⟨hl, ?_, ?_⟩ hf⟩
    · have e : truncTo m w = (if m ≥ 0 then 1 else -1) * ((m.natAbs % 2 ^ w : Nat) : Int) := by
        unfold truncTo
        rcases lt_trichotomy m 0 with h | h | h
        · rw [if_neg (by omega), Int.sign_eq_neg_one_of_neg h]
        · subst h; simp
        · rw [if_pos (by omega), Int.sign_eq_one_of_pos h]
      exact e ▸ hv
    · intro u hu
      obtain ⟨j, hj, rfl⟩ := List.getElem_of_mem hu
      obtain ⟨d, hd, _⟩ := hv
      refine ⟨?_, (hd j hj).1.1⟩
      have := ht j hj
      unfold Word.isTriv at this
      cases e : x[j].ct with
      | triv pt => rw [e] at this; cases this
      | ct c => exact ⟨c, e⟩

theorem demoDecrypt_fails {zs : List (Ctxt S.C)} : ∀ {as : List (Ctxt S.C)} {z : Ctxt S.C},
    (∀ a ∈ as, ∃ v, Returns (parmDecrypt ck pc.build a) v 0) → 63 < z.length →
    Fails (demoDecrypt ck pc (as ++ z :: zs)) (.err .ctTooLong)
  | [], z, _, hz => Fails.bind (parmDecrypt_too_long ck pc.build hz)
  | a :: as, z, h, hz => by
    obtain ⟨v, hv⟩ := h a (by simp)
    exact hv.bind_fails (Fails.bind (demoDecrypt_fails (fun a ha => h a (by simp [ha])) hz))

theorem demoDecrypt_returns (st : Setting S ck pc B D) : ∀ {zs : List (Ctxt S.C)} {vs : List Int},
    List.Forall₂ (fun z v => Valid ck B z v) zs vs → (∀ z ∈ zs, z.length ≤ 63) → Returns (demoDecrypt ck pc zs) vs 0
  | _, _, .nil, _ => Returns.pure _
  | _, _, .cons h1 h2, h => (h1.decrypt st pc.build (h _ (by simp))).bind0
    ((demoDecrypt_returns st h2 fun z hz => h z (by simp [hz])).bind0 (Returns.pure _))

/-! ### The operations of `arith_demo` -/

theorem shipped_agree (h1 : pc.msgMod = 32) (h2 : pc.carryMod = 1) : CloudAgree unitScheme pc shippedCloud where
  msgMod := h1
  lut c l := by
    unfold evalLut5Float encryptWordTriv
    rw [h1, h2]
    rfl

private theorem u1 : unitCost (ctAdd unitScheme shippedCloud (unitCt 28) (unitCt 28)) = some (29, 56) := by decide +kernel
private theorem u2 : unitCost (ctSub unitScheme shippedCloud (unitCt 28) (unitCt 28)) = some (29, 56) := by decide +kernel
private theorem u3 : unitCost (ctAddConst unitScheme shippedCloud (unitCt 28) (-20)) = some (29, 52) := by decide +kernel
private theorem u4 : unitCost (ctSgn unitScheme shippedCloud (unitCt 28)) = some (1, 10) := by decide +kernel
private theorem u5 : unitCost (ctMax unitScheme shippedCloud (unitCt 28) (unitCt 28)) = some (28, 95) := by decide +kernel
private theorem u6 : unitCost (ctScalarMul unitScheme shippedCloud (-121) (unitCt 16)) = some (25, 74) := by decide +kernel
private theorem u7 : unitCost (ctScalarMul unitScheme shippedCloud (-128) (unitCt 16)) = some (23, 0) := by decide +kernel
private theorem u8 : unitCost (ctScalarMul unitScheme shippedCloud 3 (unitCt 16)) = some (18, 32) := by decide +kernel

/-- words and bootstraps of a scalar multiplication in both builds -/
theorem scalarMul_unit {k : Int} (h1 : pc.msgMod = 32) (h2 : pc.carryMod = 1) (ha : pc.asc = asc12) {x : Ctxt S.C} (hx : AllEncrypted x)
    (hk : k.natAbs < 2 ^ 31) (hk1 : 1 < k.natAbs)
    (hw : ((windShifts .debug k.natAbs ascBitlen) (St.init Sched.seq)).toOption.isSome = true) {l n : Nat}
    (hu : unitCost (ctScalarMul unitScheme shippedCloud k (unitCt x.length)) = some (l, n)) :
    ∃ z, Returns (ctScalarMul S pc k x) z n ∧ z.length = l := by
  have hrel : ∃ z, Returns (ctScalarMul S (pc.withBuild .release) k x) z n ∧ z.length = l := by
    have h := (schemeRel_true S unitScheme).ctScalarMul (pc.withBuild .release) hx.shape k
    rw [(shipped_agree (pc := pc.withBuild .release) h1 h2).scalarMul rfl ha] at h
    exact cost_of_unit h hu
  cases hb : pc.build with
  | release =>
    have e : pc.withBuild .release = pc := by rw [← hb]
    rwa [e] at hrel
  | debug =>
    have e : pc.withBuild .debug = pc := by rw [← hb]
    have h := C50_scalar_mul_windows S pc hk hk1 x
    rw [if_pos hw, e] at h
    obtain ⟨z, hz, hl⟩ := hrel
    rcases h with ⟨a, a', m, g1, g2, rfl⟩ | ⟨_, g⟩
    · obtain ⟨e1, e2⟩ := hz.unique g2
      subst e1 e2
      exact ⟨z, g1, hl⟩
    · obtain ⟨f, hf⟩ := g (St.init Sched.seq)
      obtain ⟨r, q, _, hr⟩ := hz (St.init Sched.seq)
      rw [hr] at hf
      cases hf

/-- the numbers of words of the results, in the order of the source -/
def arithDemoLens : List Nat := [29, 29, 29, 1, 28, 2, 8, 16, 33, 34, 66, 9, 18, 35, 37, 68, 25, 23, 18]

private theorem mulc (h1 : pc.msgMod = 32) (h2 : pc.carryMod = 1) {n : Nat} {x y : Ctxt S.C} (hx : AllEncrypted x ∧ x.length = n)
    (hy : AllEncrypted y ∧ y.length = n) (h32 : n ≤ 32) {d l p : Nat} (e : mulTable[n]? = some (d, l, p)) :
    ∃ z, Returns ((arithCt S pc).mul x y) z p ∧ z.length = l := by
  obtain ⟨d', l', p', z, h, hr, hl⟩ := C56_mul_cost h1 h2 hx.1 hy.1 (by rw [hx.2, hy.2]) (by rw [hx.2]; exact h32)
  rw [hx.2, e] at h
  cases h
  exact ⟨z, hr, hl⟩

private theorem squc (h1 : pc.msgMod = 32) (h2 : pc.carryMod = 1) {n : Nat} {x : Ctxt S.C} (hx : AllEncrypted x ∧ x.length = n)
    (h32 : n ≤ 32) {d l p : Nat} (e : squTable[n]? = some (d, l, p)) :
    ∃ z, Returns ((arithCt S pc).squ x) z p ∧ z.length = l := by
  obtain ⟨d', l', p', z, h, hr, hl⟩ := C56_squ_cost h1 h2 hx.1 (by rw [hx.2]; exact h32)
  rw [hx.2, e] at h
  cases h
  exact ⟨z, hr, hl⟩

theorem arithDemoOps_cost (h1 : pc.msgMod = 32) (h2 : pc.carryMod = 1) (hp : pc.params = Params.M4C0) (ha : pc.asc = asc12)
    {c0 c1 c2 cx1 cy1 cx4 cy4 cx8 cy8 cx16 cy16 cx17 cy17 cx32 cy32 : Ctxt S.C}
    (g0 : AllEncrypted c0 ∧ c0.length = 28) (g1 : AllEncrypted c1 ∧ c1.length = 28) (g2 : AllEncrypted c2 ∧ c2.length = 28)
    (gx1 : AllEncrypted cx1 ∧ cx1.length = 1) (gy1 : AllEncrypted cy1 ∧ cy1.length = 1)
    (gx4 : AllEncrypted cx4 ∧ cx4.length = 4) (gy4 : AllEncrypted cy4 ∧ cy4.length = 4)
    (gx8 : AllEncrypted cx8 ∧ cx8.length = 8) (gy8 : AllEncrypted cy8 ∧ cy8.length = 8)
    (gx16 : AllEncrypted cx16 ∧ cx16.length = 16) (gy16 : AllEncrypted cy16 ∧ cy16.length = 16)
    (gx17 : AllEncrypted cx17 ∧ cx17.length = 17) (gy17 : AllEncrypted cy17 ∧ cy17.length = 17)
    (gx32 : AllEncrypted cx32 ∧ cx32.length = 32) (gy32 : AllEncrypted cy32 ∧ cy32.length = 32) :
    ∃ zs, Returns (arithDemoOps (arithCt S pc) c0 c1 c2 cx1 cy1 cx4 cy4 cx8 cy8 cx16 cy16 cx17 cy17 cx32 cy32) zs 7808 ∧
      zs.map List.length = arithDemoLens := by
  have R := schemeRel_true S unitScheme
  have A := shipped_agree h1 h2
  have hq : pc.params.quadWeight = shippedCloud.params.quadWeight := by rw [hp]; rfl
  have e0 : CRel (fun _ _ => True) c0 (unitCt 28) := g0.2 ▸ g0.1.shape
  have e1 : CRel (fun _ _ => True) c1 (unitCt 28) := g1.2 ▸ g1.1.shape
  have e2 : CRel (fun _ _ => True) c2 (unitCt 28) := g2.2 ▸ g2.1.shape
  obtain ⟨z1, r1, l1⟩ : ∃ z, Returns ((arithCt S pc).add c0 c1) z 56 ∧ z.length = 29 :=
    cost_of_unit (R.ctAdd pc e0 e1) ((congrArg unitCost (A.add _ _)).trans u1)
  obtain ⟨z2, r2, l2⟩ : ∃ z, Returns ((arithCt S pc).sub c1 c0) z 56 ∧ z.length = 29 :=
    cost_of_unit (R.ctSub pc e1 e0) ((congrArg unitCost (A.sub _ _)).trans u2)
  obtain ⟨z3, r3, l3⟩ : ∃ z, Returns ((arithCt S pc).addConst c0 (-20)) z 52 ∧ z.length = 29 := by
    have h := R.ctAddConst (pc.withBuild .release) e0 (-20)
    have A' := shipped_agree (pc := pc.withBuild .release) h1 h2
    obtain ⟨z, hz, hl⟩ := cost_of_unit h ((congrArg unitCost (A'.addConst rfl (by rw [hp]; rfl) _ _)).trans u3)
    rw [← C50_add_const S pc (k := -20) (by norm_num) (by norm_num) pc.build .release c0] at hz
    exact ⟨z, hz, hl⟩
  obtain ⟨z4, r4, l4⟩ : ∃ z, Returns ((arithCt S pc).sgn c2) z 10 ∧ z.length = 1 :=
    cost_of_unit (R.ctSgn pc e2) ((congrArg unitCost (A.sgn hq _)).trans u4)
  obtain ⟨z5, r5, l5⟩ : ∃ z, Returns ((arithCt S pc).max c1 c0) z 95 ∧ z.length = 28 :=
    cost_of_unit (R.ctMax pc e1 e0) ((congrArg unitCost (A.max hq _ _)).trans u5)
  obtain ⟨z6, r6, l6⟩ := mulc h1 h2 gx1 gy1 (by decide) (show mulTable[1]? = some (1, 2, 1) from rfl)
  obtain ⟨z7, r7, l7⟩ := mulc h1 h2 gx4 gy4 (by decide) (show mulTable[4]? = some (7, 8, 40) from rfl)
  obtain ⟨z8, r8, l8⟩ := mulc h1 h2 gx8 gy8 (by decide) (show mulTable[8]? = some (15, 16, 176) from rfl)
  obtain ⟨z9, r9, l9⟩ := mulc h1 h2 gx16 gy16 (by decide) (show mulTable[16]? = some (23, 33, 725) from rfl)
  obtain ⟨z10, r10, l10⟩ := mulc h1 h2 gx17 gy17 (by decide) (show mulTable[17]? = some (33, 34, 833) from rfl)
  obtain ⟨z11, r11, l11⟩ := mulc h1 h2 gx32 gy32 (by decide) (show mulTable[32]? = some (41, 66, 2617) from rfl)
  obtain ⟨z12, r12, l12⟩ := squc h1 h2 gx4 (by decide) (show squTable[4]? = some (5, 9, 24) from rfl)
  obtain ⟨z13, r13, l13⟩ := squc h1 h2 gx8 (by decide) (show squTable[8]? = some (11, 18, 122) from rfl)
  obtain ⟨z14, r14, l14⟩ := squc h1 h2 gx16 (by decide) (show squTable[16]? = some (19, 35, 488) from rfl)
  obtain ⟨z15, r15, l15⟩ := squc h1 h2 gx17 (by decide) (show squTable[17]? = some (21, 37, 570) from rfl)
  obtain ⟨z16, r16, l16⟩ := squc h1 h2 gx32 (by decide) (show squTable[32]? = some (27, 68, 1837) from rfl)
  obtain ⟨z17, r17, l17⟩ : ∃ z, Returns ((arithCt S pc).scalarMul (-121) cx16) z 74 ∧ z.length = 25 :=
    scalarMul_unit (k := -121) h1 h2 ha gx16.1 (by decide) (by decide) (by decide +kernel) (by rw [gx16.2]; exact u6)
  obtain ⟨z18, r18, l18⟩ : ∃ z, Returns ((arithCt S pc).scalarMul (-128) cx16) z 0 ∧ z.length = 23 :=
    scalarMul_unit (k := -128) h1 h2 ha gx16.1 (by decide) (by decide) (by decide +kernel) (by rw [gx16.2]; exact u7)
  obtain ⟨z19, r19, l19⟩ : ∃ z, Returns ((arithCt S pc).scalarMul 3 cx16) z 32 ∧ z.length = 18 :=
    scalarMul_unit (k := 3) h1 h2 ha gx16.1 (by decide) (by decide) (by decide +kernel) (by rw [gx16.2]; exact u8)
  refine ⟨[z1, z2, z3, z4, z5, z6, z7, z8, z9, z10, z11, z12, z13, z14, z15, z16, z17, z18, z19], ?_, ?_⟩
  · exact Returns.congr (r1.bind (r2.bind (r3.bind (r4.bind (r5.bind (r6.bind (r7.bind (r8.bind (r9.bind (r10.bind (r11.bind
      (r12.bind (r13.bind (r14.bind (r15.bind (r16.bind (r17.bind (r18.bind (r19.bind (Returns.pure _)))))))))))))))))))) rfl rfl
  · simp only [List.map_cons, List.map_nil, l1, l2, l3, l4, l5, l6, l7, l8, l9, l10, l11, l12, l13, l14, l15, l16, l17, l18, l19]
    rfl

/-! ### … as a program -/

/-- the operations of the demo as a program on its 15 ciphertexts -/
def arithDemoProg : List Instr :=
  [.add 0 1, .sub 1 0, .addConst 0 (-20), .sgn 2, .max 1 0,
   .mul 3 4, .mul 5 6, .mul 7 8, .mul 9 10, .mul 11 12, .mul 13 14,
   .squ 5, .squ 7, .squ 9, .squ 11, .squ 13,
   .scalarMul (-121) 9, .scalarMul (-128) 9, .scalarMul 3 9]

theorem arithDemoOps_prog {T : Type} (A : Arith T) (c0 c1 c2 cx1 cy1 cx4 cy4 cx8 cy8 cx16 cy16 cx17 cy17 cx32 cy32 : T) :
    arithDemoOps A c0 c1 c2 cx1 cy1 cx4 cy4 cx8 cy8 cx16 cy16 cx17 cy17 cx32 cy32 = (do
      let z ← runProg A arithDemoProg [c0, c1, c2, cx1, cy1, cx4, cy4, cx8, cy8, cx16, cy16, cx17, cy17, cx32, cy32]
      pure (z.drop 15)) := by
  simp only [arithDemoProg, runProg, Instr.run, idx, List.cons_append, List.nil_append, List.getElem?_cons_zero,
    List.getElem?_cons_succ, pure_bind, bind_assoc, arithDemoOps, List.drop_succ_cons, List.drop_zero]

/-- a program that does not fail in the build at hand computes what it computes in the release build -/
theorem prog_any_build {p : List Instr} {xs : List (Ctxt S.C)} {P : List (Ctxt S.C) → Prop}
    (h : Yields (runProg (arithCt S (pc.withBuild .release)) p xs) P) {β : Type} {f : List (Ctxt S.C) → M β} {b : β} {n : Nat}
    (hr : Returns (runProg (arithCt S pc) p xs >>= f) b n) : Yields (runProg (arithCt S pc) p xs) P := by
  cases hb : pc.build with
  | release =>
    have e : pc.withBuild .release = pc := by rw [← hb]
    rwa [e] at h
  | debug =>
    have e : pc.withBuild .debug = pc := by rw [← hb]
    obtain ⟨a, k, ha, hP⟩ := h
    have h := C50_program_partial S pc p xs
    rw [e] at h
    rcases h with h | ⟨a', a'', m, g1, g2, rfl⟩ | ⟨_, g⟩
    · exact absurd h.bind fun h => hr.not_fails h
    · obtain ⟨e1, e2⟩ := ha.unique g2
      subst e1 e2
      exact ⟨a, k, g1, hP⟩
    · obtain ⟨f, hf⟩ := g (St.init Sched.seq)
      obtain ⟨r, q, _, hr⟩ := ha (St.init Sched.seq)
      rw [hr] at hf
      cases hf

theorem forall₂_of_getD {R : Ctxt S.C → Int → Prop} {xs : List (Ctxt S.C)} {vs : List Int} (h : vs.length = xs.length)
    (hi : ∀ i (h : i < xs.length), R xs[i] (vs.getD i 0)) : List.Forall₂ R xs vs := by
  refine List.forall₂_of_length_eq_of_get h.symm fun i h1 h2 => ?_
  have := hi i h1
  rwa [List.getD_eq_getElem?_getD, List.getElem?_eq_getElem h2, Option.getD_some] at this

theorem ValidRegs.of_forall₂ {xs : List (Ctxt S.C)} {vs : List Int} (h : List.Forall₂ (fun x v => Valid ck B x v) xs vs) :
    ValidRegs ck B xs vs := by
  refine ⟨h.length_eq.symm, fun i hi => ?_⟩
  have h2 : i < vs.length := h.length_eq ▸ hi
  have := h.get hi h2
  rwa [List.getD_eq_getElem?_getD, List.getElem?_eq_getElem h2, Option.getD_some]

/-- the values and numbers of words the demo encrypts -/
def arithDemoVals : List Int := arithDemoIn.map fun mw => truncTo mw.1 mw.2

theorem arithDemoProg_val : (valProg arithDemoProg arithDemoVals).drop 15 = arithDemoExp := by decide +kernel

theorem arithDemoOps_valid (st : Setting S ck pc B D) (ha : pc.asc = asc12)
    {c0 c1 c2 cx1 cy1 cx4 cy4 cx8 cy8 cx16 cy16 cx17 cy17 cx32 cy32 : Ctxt S.C}
    (hv : List.Forall₂ (fun x v => Valid ck B x v)
      [c0, c1, c2, cx1, cy1, cx4, cy4, cx8, cy8, cx16, cy16, cx17, cy17, cx32, cy32] arithDemoVals)
    (hl : [c0, c1, c2, cx1, cy1, cx4, cy4, cx8, cy8, cx16, cy16, cx17, cy17, cx32, cy32].map List.length =
      arithDemoIn.map (·.2)) {zs : List (Ctxt S.C)} {n : Nat}
    (hz : Returns (arithDemoOps (arithCt S pc) c0 c1 c2 cx1 cy1 cx4 cy4 cx8 cy8 cx16 cy16 cx17 cy17 cx32 cy32) zs n) :
    List.Forall₂ (fun z v => Valid ck B z v) zs arithDemoExp := by
  rw [arithDemoOps_prog] at hz
  have hlen : lenProg arithDemoProg (arithDemoIn.map (·.2)) = some _ := rfl
  have h := C44_program (st.withBuild .release) .release arithDemoProg (Or.inr ⟨rfl, ha⟩) (ValidRegs.of_forall₂ hv)
    (ls := arithDemoIn.map (·.2)) (by rw [← hl, List.length_map]) (fun i hi => by
      rw [← hl, List.getD_eq_getElem?_getD, List.getElem?_map, List.getElem?_eq_getElem hi]
      exact le_rfl) (by show wfProg arithDemoProg 15 ; decide) hlen
  obtain ⟨ws, k, hw, hV, _⟩ := prog_any_build h hz
  have e := (hz.unique (hw.bind (Returns.pure _))).1
  subst e
  rw [← arithDemoProg_val]
  exact List.forall₂_drop 15 (forall₂_of_getD hV.1 hV.2)

end
end Parm
