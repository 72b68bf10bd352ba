import Verif.Proof.Oblivious
import Verif.Proof.Agree
import Verif.Props.Program

/-!
# Schedules, obliviousness, trivial inputs, product lengths: properties C21–C24
-/

namespace Parm

/-! ### Consequences of the relational lemmas -/

theorem Settled.scheduleIndependent {α : Type} {m : M α} (h : Settled m) : ScheduleIndependent m := by
  intro s t a s' hs
  rcases h with ⟨b, n, h⟩ | h
  · obtain ⟨r, rp, hx, hr⟩ := h s
    obtain ⟨r', _, _, hr'⟩ := h t
    rw [hs] at hr
    cases hr
    exact ⟨_, hr', by simp⟩
  · obtain ⟨f, hf⟩ := h s
    rw [hs] at hf; cases hf

theorem RelM.sameOutcome {Z : Prop} {α β : Type} {Q Q' : α → β → Prop} {m : M α} {m' : M β} (h : RelM Z Q m m')
    (hq : ∀ a b, Q a b → Q' a b) : SameOutcome Q' m m' := by
  rcases h with ⟨a, a', n, h1, h2, h3, _⟩ | h
  · exact Or.inl ⟨a, a', n, h1, h2, hq _ _ h3⟩
  · exact Or.inr h

/-- equality of ciphertexts -/
theorem schemeRel_eq (S : Scheme) : SchemeRel S S (· = ·) where
  add := by rintro _ _ _ _ rfl rfl; rfl
  neg := by rintro _ _ rfl; rfl
  mulC := by rintro _ _ _ rfl; rfl
  addPt := by rintro _ _ _ rfl; rfl
  pbs := by rintro _ _ _ rfl; rfl

/-- any two ciphertexts -/
theorem schemeRel_true (S S' : Scheme) : SchemeRel S S' (fun _ _ => True) where
  add _ _ := trivial
  neg _ := trivial
  mulC _ _ := trivial
  addPt _ _ := trivial
  pbs _ _ := trivial

/-- no two ciphertexts -/
theorem schemeRel_false (S : Scheme) : SchemeRel S S (fun _ _ => False) where
  add h _ := h
  neg h := h
  mulC _ h := h
  addPt _ h := h
  pbs _ h := h

theorem CRel.refl {C : Type} (x : Ctxt C) : CRel (· = ·) x x := by
  refine List.forall₂_same.2 fun w _ => ?_
  obtain ⟨c, m⟩ := w
  cases c with
  | ct c => exact WRel.ct m rfl
  | triv p => exact WRel.triv p m

theorem sameShape_iff {C C' : Type} (x : Ctxt C) (x' : Ctxt C') :
    SameShape x x' ↔ CRel (fun _ _ => True) x x' := by
  constructor
  · rintro ⟨h1, h2⟩
    refine List.forall₂_of_length_eq_of_get h1 fun i hi hi' => ?_
    obtain ⟨hm, hc⟩ := h2 i hi hi'
    simp only [List.get_eq_getElem]
    revert hm hc
    generalize x[i] = w
    generalize x'[i] = w'
    obtain ⟨c, m⟩ := w
    obtain ⟨c', m'⟩ := w'
    intro hm hc
    dsimp only at hm
    subst hm
    cases c <;> cases c'
    · exact WRel.ct _ trivial
    · exact absurd hc id
    · exact absurd hc id
    · dsimp only at hc
      subst hc
      exact WRel.triv _ _
  · intro h
    refine ⟨h.length_eq, fun i hi hi' => ?_⟩
    have := h.get hi hi'
    simp only [List.get_eq_getElem] at this
    revert this
    generalize x[i] = w
    generalize x'[i] = w'
    intro this
    cases this with
    | ct m _ => exact ⟨rfl, trivial⟩
    | triv p m => exact ⟨rfl, rfl⟩

theorem allTrivial_iff {C : Type} (x : Ctxt C) : AllTrivial x ↔ CRel (fun _ _ => False) x x := by
  unfold AllTrivial CRel
  rw [List.forall₂_same]
  constructor
  · intro h w hw
    obtain ⟨p, hp⟩ := h w hw
    obtain ⟨c, m⟩ := w
    dsimp only at hp
    subst hp
    exact WRel.triv p m
  · intro h w hw
    cases h w hw with
    | ct _ r => exact absurd r id
    | triv p m => exact ⟨p, rfl⟩

theorem forall₂_crel_refl {C : Type} (xs : List (Ctxt C)) : List.Forall₂ (CRel (· = ·)) xs xs :=
  List.forall₂_same.2 fun x _ => CRel.refl x

/-! ### C22 -/

section
variable (S : Scheme) (pc : Cloud)

/-- **C22.** Every operation of the arithmetic interface, on arbitrary (possibly invalid)
ciphertexts, returns the same ciphertext and performs the same number of bootstraps whatever the
order in which its parallel tasks run — or fails in every order. -/
theorem C22_operation (ins : Instr) (xs : List (Ctxt S.C)) : ScheduleIndependent (ins.run (arithCt S pc) xs) :=
  (((schemeRel_eq S).arithCt pc).instr (forall₂_crel_refl xs) ins).left.scheduleIndependent

/-- **C22**, the operations without final refresh. -/
theorem C22_noisy (x y : Ctxt S.C) :
    ScheduleIndependent (ctAddNoisy S pc x y) ∧ ScheduleIndependent (ctSubNoisy S pc x y) :=
  ⟨((schemeRel_eq S).ctAddNoisy pc (CRel.refl x) (CRel.refl y)).left.scheduleIndependent,
    ((schemeRel_eq S).ctSubNoisy pc (CRel.refl x) (CRel.refl y)).left.scheduleIndependent⟩

/-- **C22**, whole programs. -/
theorem C22_program (p : List Instr) (xs : List (Ctxt S.C)) : ScheduleIndependent (runProg (arithCt S pc) p xs) :=
  (((schemeRel_eq S).arithCt pc).prog p (forall₂_crel_refl xs)).left.scheduleIndependent

/-- **C22**, neural networks. -/
theorem C22_network (nn : NeuralNetwork) (inputs : List (Ctxt S.C)) :
    ScheduleIndependent (nn.eval (arithCt S pc) inputs) :=
  (((schemeRel_eq S).arithCt pc).evalLayers nn.layers (forall₂_crel_refl inputs) .nil).left.scheduleIndependent

/-- **C22**, failures: an operation that fails in one order fails in all. -/
theorem ScheduleIndependent.fails {α : Type} {m : M α} (h : ScheduleIndependent m) {s : St} {f : Fault}
    (hs : m s = .error f) : AllFail m := by
  intro t
  cases ht : m t with
  | error f => exact ⟨f, rfl⟩
  | ok r =>
    obtain ⟨a, t'⟩ := r
    obtain ⟨s', hs', _⟩ := h t s a t' ht
    rw [hs] at hs'; cases hs'

/-- **C22**, the sequential build (feature `seq_analyze`): what it computes is what every parallel
execution computes. -/
theorem C22_sequential (p : List Instr) (xs zs : List (Ctxt S.C)) (s' : St)
    (h : runProg (arithCt S pc) p xs (St.init Sched.seq) = .ok (zs, s')) (σ : Sched) :
    ∃ t', runProg (arithCt S pc) p xs (St.init σ) = .ok (zs, t') ∧ t'.pbs = s'.pbs := by
  obtain ⟨t', h1, h2⟩ := C22_program S pc p xs (St.init Sched.seq) (St.init σ) zs s' h
  exact ⟨t', h1, by simpa [St.init] using h2⟩

end

/-- Not vacuous: a monadic computation can depend on the schedule. -/
example : ¬ ScheduleIndependent (M.nextOrder 2) := by
  intro h
  let σ : Sched := ⟨fun _ k => (List.range k).reverse, fun _ k => List.reverse_perm _⟩
  obtain ⟨t', h1, _⟩ := h (St.init Sched.seq) (St.init σ) [0, 1] ⟨Sched.seq, 1, 0, [], []⟩ rfl
  have : M.nextOrder 2 (St.init σ) = .ok ([1, 0], ⟨σ, 1, 0, [], []⟩) := rfl
  rw [this] at h1
  injection h1 with h1
  injection h1 with h1 _
  simp at h1

/-! ### C23 -/

section
variable {S S' : Scheme} (pc : Cloud)

/-- **C23.** Whatever the encrypted contents — even with another scheme or key — the outcome of
an operation on inputs of the same shape is the same: both succeed with results of the same
shape after the same number of bootstraps, or both fail. -/
theorem C23_operation (ins : Instr) {xs : List (Ctxt S.C)} {xs' : List (Ctxt S'.C)}
    (h : List.Forall₂ SameShape xs xs') :
    SameOutcome SameShape (ins.run (arithCt S pc) xs) (ins.run (arithCt S' pc) xs') :=
  (((schemeRel_true S S').arithCt pc).instr (h.imp fun x x' => (sameShape_iff x x').1) ins).sameOutcome
    fun x x' => (sameShape_iff x x').2

/-- **C23**, the operations without final refresh. -/
theorem C23_noisy {x y : Ctxt S.C} {x' y' : Ctxt S'.C} (hx : SameShape x x') (hy : SameShape y y') :
    SameOutcome SameShape (ctAddNoisy S pc x y) (ctAddNoisy S' pc x' y') ∧
    SameOutcome SameShape (ctSubNoisy S pc x y) (ctSubNoisy S' pc x' y') :=
  ⟨((schemeRel_true S S').ctAddNoisy pc ((sameShape_iff _ _).1 hx) ((sameShape_iff _ _).1 hy)).sameOutcome
      fun x x' => (sameShape_iff x x').2,
    ((schemeRel_true S S').ctSubNoisy pc ((sameShape_iff _ _).1 hx) ((sameShape_iff _ _).1 hy)).sameOutcome
      fun x x' => (sameShape_iff x x').2⟩

/-- **C23**, whole programs. -/
theorem C23_program (p : List Instr) {xs : List (Ctxt S.C)} {xs' : List (Ctxt S'.C)}
    (h : List.Forall₂ SameShape xs xs') :
    SameOutcome (List.Forall₂ SameShape) (runProg (arithCt S pc) p xs) (runProg (arithCt S' pc) p xs') :=
  (((schemeRel_true S S').arithCt pc).prog p (h.imp fun x x' => (sameShape_iff x x').1)).sameOutcome
    fun _ _ h => h.imp fun x x' => (sameShape_iff x x').2

/-- **C23**, neural networks. -/
theorem C23_network (nn : NeuralNetwork) {xs : List (Ctxt S.C)} {xs' : List (Ctxt S'.C)}
    (h : List.Forall₂ SameShape xs xs') :
    SameOutcome (List.Forall₂ SameShape) (nn.eval (arithCt S pc) xs) (nn.eval (arithCt S' pc) xs') :=
  (((schemeRel_true S S').arithCt pc).evalLayers nn.layers (h.imp fun x x' => (sameShape_iff x x').1) .nil).sameOutcome
    fun _ _ h => h.imp fun x x' => (sameShape_iff x x').2

end

theorem Demo.sameShape_encVec (l l' : List Int) (h : l.length = l'.length) :
    SameShape (Demo.encVec l) (Demo.encVec l') := by
  refine ⟨by unfold encVec; rw [List.length_map, List.length_map, h], ?_⟩
  intro i hi hi'
  simp only [encVec, List.getElem_map, List.getElem_range]
  exact ⟨rfl, trivial⟩

/-- Case: sign of an encryption of 5 and of an encryption of -1 (under the demo key). -/
example : SameShape (Demo.encVec [1, 0, 1]) (Demo.encVec [-1, 0, 0]) ∧
    SameOutcome SameShape (ctSgn Demo.scheme Demo.cloud (Demo.encVec [1, 0, 1]))
      (ctSgn Demo.scheme Demo.cloud (Demo.encVec [-1, 0, 0])) := by
  have h : SameShape (Demo.encVec [1, 0, 1]) (Demo.encVec [-1, 0, 0]) := Demo.sameShape_encVec _ _ (by simp)
  exact ⟨h, ((schemeRel_true _ _).ctSgn Demo.cloud ((sameShape_iff _ _).1 h)).sameOutcome
    fun x x' => (sameShape_iff x x').2⟩

/-! ### C24 -/

section
variable {S : Scheme} {ck : ClientKey S} {pc : Cloud} {B D : Nat}

theorem AllTrivial.run (pc : Cloud) (ins : Instr) {xs : List (Ctxt S.C)} (h : ∀ x ∈ xs, AllTrivial x) :
    (∃ z, Returns (ins.run (arithCt S pc) xs) z 0 ∧ AllTrivial z) ∨ AllFail (ins.run (arithCt S pc) xs) := by
  have hr : List.Forall₂ (CRel (fun _ _ => False)) xs xs :=
    List.forall₂_same.2 fun x hx => (allTrivial_iff x).1 (h x hx)
  rcases ((schemeRel_false S).arithCt pc).instr hr ins with ⟨a, a', n, h1, h2, h3, h4⟩ | ⟨h, _⟩
  · have hn := h4 (fun _ _ h => h)
    subst hn
    obtain rfl := (h1.unique h2).1
    exact Or.inl ⟨a, h1, (allTrivial_iff a).2 h3⟩
  · exact Or.inr h

theorem AllTrivial.prog (pc : Cloud) (p : List Instr) {xs : List (Ctxt S.C)} (h : ∀ x ∈ xs, AllTrivial x) :
    (∃ zs, Returns (runProg (arithCt S pc) p xs) zs 0 ∧ ∀ z ∈ zs, AllTrivial z) ∨
      AllFail (runProg (arithCt S pc) p xs) := by
  have hr : List.Forall₂ (CRel (fun _ _ => False)) xs xs :=
    List.forall₂_same.2 fun x hx => (allTrivial_iff x).1 (h x hx)
  rcases ((schemeRel_false S).arithCt pc).prog p hr with ⟨a, a', n, h1, h2, h3, h4⟩ | ⟨h, _⟩
  · have hn := h4 (fun _ _ h => h)
    subst hn
    obtain rfl := (h1.unique h2).1
    exact Or.inl ⟨a, h1, fun z hz => (allTrivial_iff z).2 (List.forall₂_same.1 h3 z hz)⟩
  · exact Or.inr h

/-- valid trivial words decrypt without a key -/
theorem Valid.decrypt_none {z : Ctxt S.C} {v : Int} (hz : Valid ck B z v) (ht : AllTrivial z) :
    ∃ ds : List Int, ds.length = z.length ∧ (∀ d ∈ ds, IsDigit d) ∧ value ds = v ∧
      ∀ i (h : i < z.length) (h' : i < ds.length), Returns (decryptMi (S := S) none z[i]) ds[i] 0 := by
  obtain ⟨d, hd, hv⟩ := hz
  refine ⟨(List.range z.length).map d, by simp, ?_, ?_, ?_⟩
  · intro a ha
    simp only [List.mem_map, List.mem_range] at ha
    obtain ⟨i, hi, rfl⟩ := ha
    exact (hd i hi).2
  · rw [← hv]
    unfold value
    rw [List.length_map, List.length_range]
    apply valueN_congr
    intro i hi
    simp [List.getD_eq_getElem?_getD, hi]
  · intro i hi hi'
    obtain ⟨p, hp⟩ := ht z[i] (List.getElem_mem hi)
    obtain ⟨hm, hdig⟩ := hd i hi
    unfold WordEnc at hm
    rw [hp] at hm
    unfold decryptMi decryptMu
    rw [hp]
    refine (Returns.pure _).bind0 ((Returns.pure _).congr ?_ rfl)
    rw [hm.1, hm.2]
    simp only [List.getElem_map, List.getElem_range]
    rcases hdig with h | h | h <;> rw [h] <;> decide +kernel

/-- **C24.** Operations on valid ciphertexts made of trivial words only perform no bootstrap, and
return trivial words only, which decrypt to the exact result without any key. -/
theorem C24_operation (st : Setting S ck pc B D) (ins : Instr) (hs : ScalarsOk pc [ins])
    {xs : List (Ctxt S.C)} {vs : List Int} (h : ValidRegs ck B xs vs) (ht : ∀ x ∈ xs, AllTrivial x)
    (hwf : ins.wf xs.length)
    (hmul : ∀ i j, ins = .mul i j → ∀ (hi : i < xs.length) (hj : j < xs.length),
      xs[i].length ≤ 32 ∧ xs[j].length ≤ 32)
    (hsqu : ∀ i, ins = .squ i → ∀ (hi : i < xs.length), xs[i].length ≤ 32) :
    ∃ z, Returns (ins.run (arithCt S pc) xs) z 0 ∧ AllTrivial z ∧ ∃ ds : List Int, ds.length = z.length ∧
      (∀ d ∈ ds, IsDigit d) ∧ value ds = ins.val vs ∧
      ∀ i (h : i < z.length) (h' : i < ds.length), Returns (decryptMi (S := S) none z[i]) ds[i] 0 := by
  obtain ⟨z, n, hz, hv⟩ := C07_closure st ins hs h hwf hmul hsqu
  rcases AllTrivial.run pc ins ht with ⟨z', hz', htz⟩ | hf
  · obtain rfl := (hz.unique hz').1
    exact ⟨z, hz', htz, hv.decrypt_none htz⟩
  · exact absurd hf hz.not_allFail

/-- **C24**, whole programs. -/
theorem C24_program (st : Setting S ck pc B D) (p : List Instr) (hs : ScalarsOk pc p)
    {xs : List (Ctxt S.C)} {vs : List Int} (h : ValidRegs ck B xs vs) (ht : ∀ x ∈ xs, AllTrivial x)
    {ls ls' : List Nat} (hl : ls.length = xs.length)
    (hle : ∀ i (h : i < xs.length), xs[i].length ≤ ls.getD i 0)
    (hwf : wfProg p xs.length) (hlen : lenProg p ls = some ls') :
    ∃ zs, Returns (runProg (arithCt S pc) p xs) zs 0 ∧ (∀ z ∈ zs, AllTrivial z) ∧
      ValidRegs ck B zs (valProg p vs) := by
  obtain ⟨z, n, hz, hv, _⟩ := C44_program st .release p hs h hl hle hwf hlen
  rcases AllTrivial.prog pc p ht with ⟨z', hz', htz⟩ | hf
  · obtain rfl := (hz.unique hz').1
    exact ⟨z, hz', htz, hv⟩
  · exact absurd hf hz.not_allFail

/-- **C24**, arbitrary trivial inputs (valid or not): no bootstrap is ever performed. -/
theorem C24_no_bootstrap (pc : Cloud) (p : List Instr) {xs : List (Ctxt S.C)} (h : ∀ x ∈ xs, AllTrivial x)
    {s s' : St} {zs : List (Ctxt S.C)} (hr : runProg (arithCt S pc) p xs s = .ok (zs, s')) :
    s'.pbs = s.pbs ∧ ∀ z ∈ zs, AllTrivial z := by
  rcases AllTrivial.prog pc p h with ⟨z', hz', htz⟩ | hf
  · obtain ⟨r, _, _, e⟩ := hz' s
    rw [hr] at e
    cases e
    exact ⟨rfl, htz⟩
  · obtain ⟨f, hf⟩ := hf s
    rw [hr] at hf; cases hf

end

/-- Case: `(7 · 7)²` and its sign from a trivial 7. -/
example : ∃ zs, Returns (runProg (arithCt Demo.scheme Demo.cloud) [.mul 0 0, .squ 1, .sgn 2]
      [[encryptWordTriv _ Demo.cloud 1, encryptWordTriv _ Demo.cloud 1, encryptWordTriv _ Demo.cloud 1]]) zs 0 ∧
    (∀ z ∈ zs, AllTrivial z) ∧ ValidRegs Demo.ck (2 ^ 53) zs [7, 49, 2401, 1] := by
  have hv : Valid Demo.ck (2 ^ 53) [encryptWordTriv _ Demo.cloud 1, encryptWordTriv _ Demo.cloud 1,
      encryptWordTriv _ Demo.cloud 1] 7 := by
    refine ⟨fun _ => 1, fun i hi => ⟨?_, Or.inr (Or.inr rfl)⟩, by decide⟩
    have h3 : i < 3 := hi
    have e : miToPt 32 1 = BitVec.ofInt 64 (1 * 2 ^ 59) := by decide +kernel
    match i, h3 with
    | 0, _ => exact ⟨rfl, e⟩
    | 1, _ => exact ⟨rfl, e⟩
    | 2, _ => exact ⟨rfl, e⟩
  refine C24_program Demo.st [.mul 0 0, .squ 1, .sgn 2] (Or.inl (by simp)) (vs := [7])
    ⟨rfl, ?_⟩ ?_ (ls := [3]) rfl ?_ (by decide) rfl
  · intro i hi
    have h1 : i < 1 := hi
    obtain rfl : i = 0 := by omega
    exact hv
  · intro x hx
    simp only [List.mem_singleton] at hx
    subst hx
    intro w hw
    simp only [List.mem_cons, List.not_mem_nil, or_false, or_self] at hw
    subst hw
    exact ⟨_, rfl⟩
  · intro i hi
    have h1 : i < 1 := hi
    obtain rfl : i = 0 := by omega
    exact Nat.le_refl 3

/-! ### C21 -/

section
variable {S : Scheme} {ck : ClientKey S} {pc : Cloud} {B D : Nat}

/-- **C21** (partial: the property as wished, "every product that is returned can be decrypted", is
false at 32 words, see `C21_mul32_not_decryptable`). Products of up to 31-word operands decrypt to
the exact product. -/
theorem C21_mul_decryptable_partial (st : Setting S ck pc B D) (build : Build) {x y : Ctxt S.C} {v w : Int}
    (hx : Valid ck B x v) (hy : Valid ck B y w) (hlx : x.length ≤ 31) (hly : y.length ≤ 31) :
    Yields (ctMul S pc x y) (fun z => z.length ≤ 63 ∧ Returns (parmDecrypt ck build z) (v * w) 0) := by
  refine (ctMul_valid st hx hy (by omega)).mono ?_
  rintro z ⟨hz, hl⟩
  have : z.length ≤ 63 := by
    refine hl.trans ?_
    unfold mulLen
    split_ifs <;> omega
  exact ⟨this, hz.decrypt st build this⟩

/-- **C21** (partial, see `C21_squ31_not_decryptable`). Squares of up to 30-word operands decrypt to
the exact square. -/
theorem C21_squ_decryptable_partial (st : Setting S ck pc B D) (build : Build) {x : Ctxt S.C} {v : Int}
    (hx : Valid ck B x v) (hl : x.length ≤ 30) :
    Yields (ctSqu S pc x) (fun z => z.length ≤ 63 ∧ Returns (parmDecrypt ck build z) (v ^ 2) 0) := by
  refine (ctSqu_valid st hx (by omega)).mono ?_
  rintro z ⟨hz, hlz⟩
  have h30 : ∀ l, l ≤ 30 → squLen l ≤ 63 := by
    intro l h
    have : ∀ l : Fin 31, squLen l.1 ≤ 63 := by decide +kernel
    exact this ⟨l, by omega⟩
  have : z.length ≤ 63 := hlz.trans (h30 _ hl)
  exact ⟨this, (hz.decrypt st build this).congr (by ring) rfl⟩

/-- a scheme whose ciphertexts carry no information -/
def unitScheme : Scheme where
  C := Unit
  add _ _ := ()
  neg _ := ()
  mulC _ _ := ()
  addPt _ _ := ()
  pbs _ _ := ()

/-- `n` encrypted words over `unitScheme` -/
def unitCt (n : Nat) : Ctxt unitScheme.C := List.replicate n ⟨.ct (), 32⟩

/-- number of words and bootstraps of a computation over `unitScheme`, run sequentially -/
def unitCost (m : M (Ctxt unitScheme.C)) : Option (Nat × Nat) :=
  match m (St.init Sched.seq) with
  | .ok (a, s) => some (a.length, s.pbs)
  | .error _ => none

/-- the cloud data used with `unitScheme` -/
def unitCloud : Cloud := ⟨Params.M4C0, 32, 1, 2048, [], .release⟩

theorem AllEncrypted.shape {x : Ctxt S.C} (h : AllEncrypted x) : CRel (fun _ _ => True) x (unitCt x.length) := by
  refine List.forall₂_of_length_eq_of_get (by simp [unitCt]) ?_
  intro i hi hi'
  obtain ⟨⟨c, hc⟩, hm⟩ := h x[i] (List.getElem_mem hi)
  simp only [List.get_eq_getElem, unitCt, List.getElem_replicate]
  revert hc hm
  generalize x[i] = w
  intro hc hm
  obtain ⟨c', m⟩ := w
  dsimp only at hc hm
  subst hc hm
  exact WRel.ct 32 trivial

theorem cost_of_unit {Z : Prop} {m : M (Ctxt S.C)} {m0 : M (Ctxt unitScheme.C)}
    (h : RelM Z (CRel (fun _ _ => True)) m m0) {l n : Nat} (hu : unitCost m0 = some (l, n)) :
    ∃ z, Returns m z n ∧ z.length = l := by
  unfold unitCost at hu
  rcases h with ⟨a, a', k, h1, h2, h3, _⟩ | ⟨_, h⟩
  · obtain ⟨r, _, _, hr⟩ := h2 (St.init Sched.seq)
    rw [hr] at hu
    simp only [Option.some.injEq, Prod.mk.injEq, St.init, Nat.zero_add] at hu
    exact ⟨a, hu.2 ▸ h1, by rw [h3.length_eq, hu.1]⟩
  · obtain ⟨f, hf⟩ := h (St.init Sched.seq)
    rw [hf] at hu
    cases hu

/-- over `unitScheme` only the message space matters -/
theorem unit_agree (h1 : pc.msgMod = 32) (h2 : pc.carryMod = 1) : CloudAgree unitScheme pc unitCloud where
  msgMod := h1
  lut c l := by
    unfold evalLut5Float encryptWordTriv
    rw [h1, h2]
    rfl

theorem unit_mul32 : unitCost (ctMul unitScheme unitCloud (unitCt 32) (unitCt 32)) = some (66, 2617) := by
  decide +kernel

theorem unit_squ31 : unitCost (ctSqu unitScheme unitCloud (unitCt 31)) = some (65, 1780) := by
  decide +kernel

theorem unit_squ32 : unitCost (ctSqu unitScheme unitCloud (unitCt 32)) = some (68, 1837) := by
  decide +kernel

theorem parmDecrypt_too_long (ck : ClientKey S) (build : Build) {z : Ctxt S.C} (h : 63 < z.length) :
    Fails (parmDecrypt ck build z) (.err .ctTooLong) := by
  obtain ⟨_, _, _, _, h5, _⟩ := C03_decrypt_total (ck := ck) build z
  exact h5 h

/-- **C21**, the exception: the product of two fully encrypted 32-word ciphertexts (whatever they
encrypt) is returned, has 66 words, and cannot be decrypted. -/
theorem C21_mul32_not_decryptable (h1 : pc.msgMod = 32) (h2 : pc.carryMod = 1) {x y : Ctxt S.C}
    (hx : AllEncrypted x) (hy : AllEncrypted y) (hlx : x.length = 32) (hly : y.length = 32) :
    ∃ z, Returns (ctMul S pc x y) z 2617 ∧ z.length = 66 ∧
      ∀ (ck : ClientKey S) build, Fails (parmDecrypt ck build z) (.err .ctTooLong) := by
  have h := (schemeRel_true S unitScheme).ctMul pc hx.shape hy.shape
  rw [hlx, hly, (unit_agree h1 h2).mul] at h
  obtain ⟨z, hz, hl⟩ := cost_of_unit h unit_mul32
  exact ⟨z, hz, hl, fun ck build => parmDecrypt_too_long ck build (by omega)⟩

/-- **C21**, the exceptions for squaring: 31 words give 65, 32 words give 68. -/
theorem C21_squ31_not_decryptable (h1 : pc.msgMod = 32) (h2 : pc.carryMod = 1) {x : Ctxt S.C}
    (hx : AllEncrypted x) (hl : x.length = 31 ∨ x.length = 32) :
    ∃ z n, Returns (ctSqu S pc x) z n ∧ z.length = (if x.length = 31 then 65 else 68) ∧
      ∀ (ck : ClientKey S) build, Fails (parmDecrypt ck build z) (.err .ctTooLong) := by
  have h := (schemeRel_true S unitScheme).ctSqu pc hx.shape
  rcases hl with hl | hl
  · rw [hl, (unit_agree h1 h2).squ] at h
    obtain ⟨z, hz, hlz⟩ := cost_of_unit h unit_squ31
    exact ⟨z, _, hz, by rw [hl, hlz]; rfl, fun ck build => parmDecrypt_too_long ck build (by omega)⟩
  · rw [hl, (unit_agree h1 h2).squ] at h
    obtain ⟨z, hz, hlz⟩ := cost_of_unit h unit_squ32
    exact ⟨z, _, hz, by rw [hl, hlz]; rfl, fun ck build => parmDecrypt_too_long ck build (by omega)⟩

end

/-- Case: two demo encryptions of 32 words. -/
example : ∃ z, Returns (ctMul Demo.scheme Demo.cloud (Demo.encVec (List.replicate 32 1))
      (Demo.encVec (List.replicate 32 (-1)))) z 2617 ∧ z.length = 66 := by
  have h : ∀ l : List Int, AllEncrypted (Demo.encVec l) := by
    intro l w hw
    simp only [Demo.encVec, List.mem_map] at hw
    obtain ⟨i, _, rfl⟩ := hw
    exact ⟨⟨_, rfl⟩, rfl⟩
  have hl : ∀ l : List Int, (Demo.encVec l).length = l.length := by
    intro l; simp [Demo.encVec]
  obtain ⟨z, h1, h2, _⟩ := C21_mul32_not_decryptable (pc := Demo.cloud) rfl rfl (h (List.replicate 32 1))
    (h (List.replicate 32 (-1))) (by rw [hl, List.length_replicate]) (by rw [hl, List.length_replicate])
  exact ⟨z, h1, h2⟩

example : Yields (ctSqu Demo.scheme Demo.cloud (Demo.encVec [0, 1, 0, -1])) (fun z => z.length ≤ 63 ∧
    Returns (parmDecrypt Demo.ck .debug z) 36 0) :=
  (C21_squ_decryptable_partial Demo.st .debug Demo.validm6 (by simp [Demo.encVec])).mono fun _ h =>
    ⟨h.1, h.2.congr (by norm_num) rfl⟩

end Parm
