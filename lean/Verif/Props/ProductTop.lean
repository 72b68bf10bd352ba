import Verif.Proof.ProductTopL
import Verif.Proof.ProductTopR

/-! **C21**: exactly which products of encrypted numbers can be decrypted. -/

namespace Parm

theorem mod32_unitCt (n : Nat) : Mod32 (unitCt n) := fun w hw => by rw [List.eq_of_mem_replicate hw]

theorem mod32_append {C : Type} {x y : Ctxt C} (hx : Mod32 x) (hy : Mod32 y) : Mod32 (x ++ y) := fun w hw => by
  rcases List.mem_append.1 hw with hw | hw
  · exact hx w hw
  · exact hy w hw

theorem mods_unit : Mods unitCloud := ⟨rfl, rfl⟩

/-- `n` encrypted words, filled up to 32 words with trivial zeros -/
theorem drop_fill {n : Nat} (hn : n ≤ 32) :
    (unitCt n ++ List.replicate (32 - n) (encryptWordTriv unitScheme.C unitCloud 0)).drop 16 = unitPad (n - 16) := by
  unfold unitPad unitCt
  rw [List.drop_append, List.drop_replicate, List.drop_replicate, List.length_replicate,
    show 32 - n - (16 - n) = 16 - (n - 16) by omega]

theorem length_mul32_unit {n : Nat} (hn : n ≤ 32) :
    Ensures (ctMul unitScheme unitCloud (unitCt 32) (unitCt n)) (fun z => 65 ≤ z.length) ∧
    Ensures (ctMul unitScheme unitCloud (unitCt n) (unitCt 32)) (fun z => 65 ≤ z.length) := by
  have fillMod : Mod32 (unitCt n ++ List.replicate (32 - n) (encryptWordTriv unitScheme.C unitCloud 0)) :=
    mod32_append (mod32_unitCt n) fun w hw => by rw [List.eq_of_mem_replicate hw]; exact mods_unit.triv _ _
  have any : ∀ {a b : Ctxt unitScheme.C}, Mod32 a → Mod32 b → a.length ≤ 16 → b.length ≤ 16 →
      Yields (mulImpl unitScheme unitCloud 31 a b).call Mod32 := fun ha hb h1 h2 =>
    (mulImpl_any mods_unit 31 ha hb (by omega) (by omega)).call.mono fun z hz => hz.1
  have padMod : Mod32 (unitPad (n - 16)) := by
    rw [← drop_fill hn]; exact fun w hw => fillMod w (List.mem_of_mem_drop hw)
  have padLen : (unitPad (n - 16)).length ≤ 16 := by
    unfold unitPad unitCt
    rw [List.length_append, List.length_replicate, List.length_replicate]
    omega
  have fillLen : (unitCt n ++ List.replicate (32 - n) (encryptWordTriv unitScheme.C unitCloud 0)).length = 32 := by
    unfold unitCt
    rw [List.length_append, List.length_replicate, List.length_replicate]
    omega
  have lenU : ∀ k, (unitCt k).length = k := fun k => List.length_replicate
  have dropU : (unitCt 32).drop 16 = unitCt 16 := rfl
  have takeU : (unitCt 32).take 16 = unitCt 16 := rfl
  have takeMod : Mod32 ((unitCt n ++ List.replicate (32 - n) (encryptWordTriv unitScheme.C unitCloud 0)).take 16) :=
    fun w hw => fillMod w (List.mem_of_mem_take hw)
  have takeLen : ((unitCt n ++ List.replicate (32 - n) (encryptWordTriv unitScheme.C unitCloud 0)).take 16).length ≤ 16 := by
    rw [List.length_take]; omega
  have en : ∀ {m : M (Ctxt unitScheme.C)} {P : Ctxt unitScheme.C → Prop}, Yields m P → Ensures m P := fun hy =>
    (hy.both (Ensures.trivial _)).mono fun a ha => ha.1
  constructor
  · refine Ensures.call ?_
    unfold mulFuel mulImpl
    have e : mulAlign unitScheme unitCloud (unitCt 32) (unitCt n) =
        (unitCt 32, unitCt n ++ List.replicate (32 - n) (encryptWordTriv unitScheme.C unitCloud 0)) := by
      unfold mulAlign
      rw [lenU, lenU, show n - 32 = 0 by omega, List.replicate_zero, List.append_nil]
    rw [e]
    dsimp only
    rw [lenU, if_neg (by omega), if_neg (by omega), if_neg (by omega), if_pos (by omega)]
    refine length_karatsuba_top mods_unit (lenU 32) ?_ ?_
    · rw [dropU, drop_fill hn]
      have hy := any (mod32_unitCt 16) padMod (le_of_eq (lenU 16)) padLen
      exact hy.both (topEnc_ensures (topEnc_left _ (by omega)) hy)
    · rw [takeU]
      exact en (any (mod32_unitCt 16) takeMod (le_of_eq (lenU 16)) takeLen)
  · refine Ensures.call ?_
    unfold mulFuel mulImpl
    have e : mulAlign unitScheme unitCloud (unitCt n) (unitCt 32) =
        (unitCt n ++ List.replicate (32 - n) (encryptWordTriv unitScheme.C unitCloud 0), unitCt 32) := by
      unfold mulAlign
      rw [lenU, lenU, show n - 32 = 0 by omega, List.replicate_zero, List.append_nil]
    rw [e]
    dsimp only
    rw [fillLen, if_neg (by omega), if_neg (by omega), if_neg (by omega), if_pos (by omega)]
    refine length_karatsuba_top mods_unit fillLen ?_ ?_
    · rw [dropU, drop_fill hn]
      have hy := any padMod (mod32_unitCt 16) padLen (le_of_eq (lenU 16))
      exact hy.both (topEnc_ensures (topEnc_right _ (by omega)) hy)
    · rw [takeU]
      exact en (any takeMod (mod32_unitCt 16) takeLen (le_of_eq (lenU 16)))

theorem length_of_unit {S : Scheme} {Z : Prop} {m : M (Ctxt S.C)} {m0 : M (Ctxt unitScheme.C)}
    (h : RelM Z (CRel (fun _ _ => True)) m m0) {Q : Ctxt unitScheme.C → Prop} (hy : Yields m0 Q) {L : Nat}
    (he : Ensures m0 fun z => L ≤ z.length) : Yields m fun z => L ≤ z.length := by
  rcases h with ⟨a, a', k, h1, h2, h3, _⟩ | ⟨_, h⟩
  · obtain ⟨r, _, _, hr⟩ := h2 (St.init Sched.seq)
    have hl : L ≤ a.length := by
      rw [h3.length_eq]; exact he _ _ _ hr
    exact ⟨a, k, h1, hl⟩
  · obtain ⟨f, hf⟩ := h (St.init Sched.seq)
    obtain ⟨z, n, hz, _⟩ := hy
    obtain ⟨r, _, _, hr⟩ := hz (St.init Sched.seq)
    rw [hr] at hf
    cases hf

variable {S : Scheme} {pc : Cloud} {ck : ClientKey S} {B D : Nat}

/-- **C21**, the exception in full: a product of a fully encrypted ciphertext of 32 words and one of any length
up to 32 (even a single word), in either order, is returned but has more than 63 words, so it can never be decrypted. -/
theorem C21_mul32_any (h1 : pc.msgMod = 32) (h2 : pc.carryMod = 1) {x y : Ctxt S.C} (hx : AllEncrypted x)
    (hy : AllEncrypted y) (hlx : x.length ≤ 32) (hly : y.length ≤ 32) (h32 : x.length = 32 ∨ y.length = 32) :
    Yields (ctMul S pc x y) fun z => 65 ≤ z.length ∧
      ∀ (ck : ClientKey S) build, Fails (parmDecrypt ck build z) (.err .ctTooLong) := by
  have h := (schemeRel_true S unitScheme).ctMul pc hx.shape hy.shape
  rw [(unit_agree h1 h2).mul] at h
  have hany := ctMul_any (S := unitScheme) mods_unit (mod32_unitCt x.length) (mod32_unitCt y.length)
    (by unfold unitCt; rw [List.length_replicate, List.length_replicate]; omega)
  refine (length_of_unit h hany (L := 65) ?_).mono fun z hz => ⟨hz, fun ck build => parmDecrypt_too_long ck build (by omega)⟩
  rcases h32 with e | e
  · rw [e]; exact (length_mul32_unit hly).1
  · rw [e]; exact (length_mul32_unit hlx).2

/-- **C21**, exact for products: two fully encrypted numbers of at most 32 words have a product that decrypts to the product
of their values if and only if both have at most 31 words. -/
theorem C21_mul_iff (st : Setting S ck pc B D) (build : Build) {x y : Ctxt S.C} {v w : Int} (hx : Valid ck B x v)
    (hy : Valid ck B y w) (ex : AllEncrypted x) (ey : AllEncrypted y) (hlx : x.length ≤ 32) (hly : y.length ≤ 32) :
    Yields (ctMul S pc x y) (fun z => Returns (parmDecrypt ck build z) (v * w) 0) ↔ x.length ≤ 31 ∧ y.length ≤ 31 := by
  constructor
  · rintro ⟨z, n, hz, hd⟩
    by_contra hc
    obtain ⟨z', n', hz', _, hf⟩ := C21_mul32_any st.msgMod st.carryMod ex ey hlx hly (by omega)
    obtain ⟨rfl, -⟩ := hz.unique hz'
    obtain ⟨r, rep, -, e⟩ := hd (St.init Sched.seq)
    rw [hf ck build] at e
    cases e
  · rintro ⟨l1, l2⟩
    exact (C21_mul_decryptable_partial st build hx hy l1 l2).mono fun z hz => hz.2

/-- **C21**, exact for squares: a fully encrypted number of at most 32 words has a square that decrypts to the square of its
value if and only if it has at most 30 words. -/
theorem C21_squ_iff (st : Setting S ck pc B D) (build : Build) {x : Ctxt S.C} {v : Int} (hx : Valid ck B x v)
    (ex : AllEncrypted x) (hlx : x.length ≤ 32) :
    Yields (ctSqu S pc x) (fun z => Returns (parmDecrypt ck build z) (v ^ 2) 0) ↔ x.length ≤ 30 := by
  constructor
  · rintro ⟨z, n, hz, hd⟩
    by_contra hc
    obtain ⟨z', n', hz', _, hf⟩ := C21_squ31_not_decryptable st.msgMod st.carryMod ex (by omega)
    obtain ⟨rfl, -⟩ := hz.unique hz'
    obtain ⟨r, rep, -, e⟩ := hd (St.init Sched.seq)
    rw [hf ck build] at e
    cases e
  · intro l
    exact (C21_squ_decryptable_partial st build hx l).mono fun z hz => hz.2

/-- Case: 32 encrypted words times a single one, in the demo scheme. -/
example : Yields (ctMul Demo.scheme Demo.cloud (List.replicate 32 ⟨.ct (7#64, 5#64), 32⟩) [⟨.ct (1#64, 2#64), 32⟩])
    fun z => 65 ≤ z.length ∧ ∀ (ck : ClientKey Demo.scheme) build, Fails (parmDecrypt ck build z) (.err .ctTooLong) :=
  C21_mul32_any rfl rfl (fun w hw => by rw [List.eq_of_mem_replicate hw]; exact ⟨⟨_, rfl⟩, rfl⟩)
    (fun w hw => by rw [List.mem_singleton.1 hw]; exact ⟨⟨_, rfl⟩, rfl⟩) (by simp) (by simp) (Or.inl (by simp))

end Parm
