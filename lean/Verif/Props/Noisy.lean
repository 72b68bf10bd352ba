import Verif.Proof.EdgeInstance
import Verif.Props.Addition
import Verif.Props.Builds
import Verif.Props.Program
import Verif.Props.Readme

/-!
# What may be done with an unrefreshed result

`add_noisy` and `sub_noisy` leave out the second round of bootstraps.  The documentation
(`/repo/src/arithmetics.rs:50-66`) reserves them for results that are decrypted at once.  C06 through the trait: value,
noise, length and the halved cost.  C76: opposites and shifts may be taken before the decryption, in any number; a
product, a square and a ReLU may not — in a setting that meets the contract, with the shipped parameters, they return a
wrong number without any failure.
-/

namespace Parm

variable {S : Scheme} {ck : ClientKey S} {pc : Cloud} {B D : Nat}

/-- the noisy operations of the trait -/
def Arith.noisy {T : Type} (A : Arith T) (isAdd : Bool) (x y : T) : M T := if isAdd then A.addNoisy x y else A.subNoisy x y

/-- a ciphertext of value `v`, its words at most `k` times as noisy as fresh ones -/
def Noisy (ck : ClientKey S) (B k : Nat) (x : Ctxt S.C) (v : Int) : Prop :=
  ∃ d, Holds ck B k x d ∧ valueN d x.length = v

/-- **C06** through the trait: value, noise (five times that of a fresh word) and length. -/
theorem C06_trait (st : Setting S ck pc B D) (build : Build) (isAdd : Bool) {x y : Ctxt S.C} {vx vy : Int}
    (hx : Valid ck B x vx) (hy : Valid ck B y vy) :
    Yields ((arithCt S pc).noisy isAdd x y) (fun z => z.length ≤ max x.length y.length + 1 ∧
      Noisy ck B 5 z (if isAdd then vx + vy else vx - vy) ∧
      (z.length ≤ 63 → Returns (parmDecrypt ck build z) (if isAdd then vx + vy else vx - vy) 0)) := by
  cases isAdd
  · exact C06_sub_noisy st build hx hy
  · exact C06_add_noisy st build hx hy

/-- **C06**, the cost: one bootstrap per position of fully encrypted operands, half of what `add` and `sub` take. -/
theorem C06_trait_cost (st : Setting S ck pc B D) (isAdd : Bool) {x y : Ctxt S.C} (hx : AllEncrypted x)
    (hy : AllEncrypted y) (hx0 : x ≠ []) (hy0 : y ≠ []) :
    ∃ z, Returns ((arithCt S pc).noisy isAdd x y) z (max x.length y.length) ∧ z.length = max x.length y.length + 1 := by
  have ne : ∀ {x : Ctxt S.C}, AllEncrypted x → ∀ i (h : i < x.length), ¬ TrivialZero x[i] := by
    intro x hx i h ht
    obtain ⟨⟨c, hc⟩, _⟩ := hx _ (List.getElem_mem h)
    rw [TrivialZero, hc] at ht; cases ht
  have strip : ∀ {x : Ctxt S.C}, AllEncrypted x → StrippedLen x x.length := fun hx =>
    ⟨le_rfl, fun i h h' => by omega, fun h => ⟨by omega, ne hx _ _⟩⟩
  have low : ∀ {x : Ctxt S.C}, AllEncrypted x → x ≠ [] → LowZeros x 0 := fun hx h =>
    ⟨fun i h h' => by omega, List.length_pos_iff.2 h, ne hx _ _⟩
  have nz : ∀ {x : Ctxt S.C}, AllEncrypted x → x ≠ [] → ¬ ∀ w ∈ x, TrivialZero w := fun hx h0 h =>
    ne hx 0 (List.length_pos_iff.2 h0) (h _ (List.getElem_mem _))
  obtain ⟨z, n, hz, _, hn⟩ := C09_add_cost st.msgMod st.carryMod (fun w hw => (hx w hw).2) (strip hx) (strip hy)
    (low hx hx0) (low hy hy0) isAdd false
  obtain ⟨z', n', hz', hl⟩ := C08_length st.msgMod st.carryMod (fun w hw => (hx w hw).2) (nz hx hx0) (nz hy hy0)
    (strip hx) (strip hy) isAdd false
  obtain ⟨rfl, rfl⟩ := hz.unique hz'
  have hn' : n = max x.length y.length := by
    have := hn fun i _ hi => by
      rcases lt_max_iff.1 hi with h | h
      · exact Or.inl ⟨h, (hx _ (List.getElem_mem h)).1⟩
      · exact Or.inr ⟨h, (hy _ (List.getElem_mem h)).1⟩
    simpa using this
  subst hn'
  refine ⟨z, ?_, hl⟩
  cases isAdd
  · exact hz
  · exact hz

example : ∃ z, Returns ((arithCt Demo.scheme Demo.cloud).noisy true (Demo.encVec [1, 0, 1]) (Demo.encVec [0, 1, 0, -1]))
    z 4 ∧ z.length = 5 :=
  C06_trait_cost Demo.st true (by intro w hw; obtain ⟨i, _, rfl⟩ := List.mem_map.1 hw; exact ⟨⟨_, rfl⟩, rfl⟩)
    (by intro w hw; obtain ⟨i, _, rfl⟩ := List.mem_map.1 hw; exact ⟨⟨_, rfl⟩, rfl⟩) (by simp [Demo.encVec])
    (by simp [Demo.encVec])

/-! ### Linear steps before the decryption -/

/-- the operations of the trait that cost nothing -/
inductive LinStep where
  | opp
  | shift (k : Nat)

/-- a step through the trait -/
def LinStep.run {T : Type} (A : Arith T) : LinStep → T → M T
  | .opp, x => A.opp x
  | .shift k, x => A.shift x k

/-- the step on integers -/
def LinStep.val : LinStep → Int → Int
  | .opp, v => -v
  | .shift k, v => v * 2 ^ k

/-- words added by a step -/
def LinStep.len : LinStep → Nat
  | .opp => 0
  | .shift k => k

/-- a sequence of steps -/
def runLin {T : Type} (A : Arith T) : List LinStep → T → M T
  | [], x => pure x
  | s :: l, x => do runLin A l (← s.run A x)

theorem Noisy.opp (st : Setting S ck pc B D) {k : Nat} {x : Ctxt S.C} {v : Int} (h : Noisy ck B k x v) :
    Noisy ck B k (ctOpp S x) (-v) := by
  obtain ⟨d, hd, rfl⟩ := h
  refine ⟨fun i => - d i, ?_, ?_⟩
  · intro i hi
    have hi' : i < x.length := by simpa [ctOpp, oppositeImpl] using hi
    have := hd i hi'
    refine ⟨?_, this.2.opp⟩
    simp only [ctOpp, oppositeImpl, List.getElem_map]
    exact this.1.opp st
  · simp only [ctOpp, oppositeImpl, List.length_map]
    exact valueN_neg d _

theorem Noisy.shift (st : Setting S ck pc B D) {k : Nat} {x : Ctxt S.C} {v : Int} (h : Noisy ck B k x v) (j : Nat) :
    Noisy ck B k (ctShift pc x j) (v * 2 ^ j) := by
  unfold ctShift
  split_ifs with h0
  · subst h0; simpa using h
  obtain ⟨d, hd, rfl⟩ := h
  refine ⟨fun i => if i < j then 0 else d (i - j), ?_, ?_⟩
  · intro i hi
    by_cases h : i < j
    · simp only [if_pos h]
      refine ⟨?_, isDigit_zero⟩
      rw [List.getElem_append_left (by rw [length_trivCt]; exact h)]
      simp only [trivCt, List.getElem_replicate]
      exact WordEnc.triv st 0 k
    · simp only [if_neg h]
      have h' : i - j < x.length := by rw [List.length_append, length_trivCt] at hi; omega
      rw [List.getElem_append_right (by rw [length_trivCt]; omega)]
      simp only [length_trivCt]
      exact hd _ h'
  · rw [List.length_append, length_trivCt, valueN_split, valueN_zero (fun i hi => by simp [hi])]
    rw [valueN_congr (d' := d) (fun i _ => by simp)]
    ring

theorem runLin_noisy (st : Setting S ck pc B D) {k : Nat} : ∀ (l : List LinStep) {x : Ctxt S.C} {v : Int},
    Noisy ck B k x v → ∃ z, Returns (runLin (arithCt S pc) l x) z 0 ∧ z.length = x.length + (l.map LinStep.len).sum ∧
      Noisy ck B k z (l.foldl (fun v s => s.val v) v)
  | [], x, v, h => ⟨x, Returns.pure _, by simp, h⟩
  | .opp :: l, x, v, h => by
    obtain ⟨z, hz, hl, hv⟩ := runLin_noisy st l (h.opp st)
    refine ⟨z, (Returns.bind (Returns.pure _) hz).congr rfl rfl, ?_, hv⟩
    rw [hl]
    simp [ctOpp, oppositeImpl, LinStep.len]
  | .shift j :: l, x, v, h => by
    obtain ⟨z, hz, hl, hv⟩ := runLin_noisy st l (h.shift st j)
    refine ⟨z, (Returns.bind (Returns.pure _) hz).congr rfl rfl, ?_, hv⟩
    rw [hl, length_ctShift]
    simp [LinStep.len]
    omega

/-- **C76.** After `add_noisy` or `sub_noisy`, any sequence of opposites and shifts runs without a bootstrap, and the
decryption still gives the exact result as long as it is defined (63 words). -/
theorem C76_linear (st : Setting S ck pc B D) (build : Build) (isAdd : Bool) {x y : Ctxt S.C} {vx vy : Int}
    (hx : Valid ck B x vx) (hy : Valid ck B y vy) (l : List LinStep)
    (hl : max x.length y.length + 1 + (l.map LinStep.len).sum ≤ 63) :
    Yields ((arithCt S pc).noisy isAdd x y >>= runLin (arithCt S pc) l) (fun z =>
      Returns (parmDecrypt ck build z) (l.foldl (fun v s => s.val v) (if isAdd then vx + vy else vx - vy)) 0) := by
  obtain ⟨z, n, hz, h1, h2, _⟩ := C06_trait st build isAdd hx hy
  obtain ⟨z', hz', hl', d, hd, hv⟩ := runLin_noisy st l h2
  refine ⟨z', n, (hz.bind hz' : Returns _ _ (n + 0)), ?_⟩
  have hk : 5 * B < 2 ^ 58 := by have := st.tol8 (k := 5) (by norm_num); omega
  exact (parmDecrypt_holds hk build hd (by omega)).congr hv rfl

/-- `-(5 - (-6)) · 4` -/
example : Yields ((arithCt Demo.scheme Demo.cloud).noisy false (Demo.encVec [1, 0, 1]) (Demo.encVec [0, 1, 0, -1]) >>=
    runLin (arithCt Demo.scheme Demo.cloud) [.opp, .shift 2]) (fun z => Returns (parmDecrypt Demo.ck .debug z) (-44) 0) :=
  (C76_linear Demo.st .debug false Demo.valid5 Demo.validm6 [.opp, .shift 2] (by simp [Demo.encVec, LinStep.len])).mono
    fun _ h => h.congr (by norm_num [LinStep.val]) rfl

/-! ### Everything else -/

/-- What a caller may hope of an operation `f` with specification `g`, used on a noisy sum (and a fresh ciphertext):
exact whenever the operation is exact on fresh operands. -/
def SafeOnNoisy (f : (T : Type) → Arith T → T → T → M T) (g : Int → Int → Int) : Prop :=
  ∀ {S : Scheme} {ck : ClientKey S} {pc : Cloud} {B D : Nat}, Setting S ck pc B D → pc.params = Params.M4C0 →
    ∀ {x y w : Ctxt S.C} {vx vy vw : Int}, Valid ck B x vx → Valid ck B y vy → Valid ck B w vw →
      x.length ≤ 3 → y.length ≤ 3 → w.length ≤ 3 →
      Yields ((arithCt S pc).noisy true x y >>= fun z => f _ (arithCt S pc) z w) (fun r =>
        Returns (parmDecrypt ck pc.build r) (g (vx + vy) vw) 0)

/-- the value returned by the run in the order of the source -/
def inOrder {α : Type} (m : M α) : Option α :=
  match m (St.init Sched.seq) with
  | .ok (a, _) => some a
  | .error _ => none

/-- a run in the order of the source settles what every order gives -/
theorem Settled.returns {α : Type} {m : M α} (h : Settled m) {a : α}
    (hs : inOrder m = some a) : ∃ n, Returns m a n := by
  unfold inOrder at hs
  rcases h with ⟨b, n, h⟩ | h
  · obtain ⟨r, rp, hx, hr⟩ := h (St.init Sched.seq)
    rw [hr] at hs
    cases hs
    exact ⟨n, h⟩
  · obtain ⟨f, hf⟩ := h (St.init Sched.seq)
    rw [hf] at hs
    cases hs

theorem settled_decrypt (ck : ClientKey S) (b : Build) (x : Ctxt S.C) : Settled (parmDecrypt ck b x) := by
  rcases C50_decrypt S ck b b x with ⟨a, _, n, h, _⟩ | ⟨h, _⟩
  · exact Or.inl ⟨a, n, h⟩
  · exact Or.inr h

theorem Settled.bind {α β : Type} {m : M α} {f : α → M β} (h : Settled m) (hf : ∀ a, Settled (f a)) :
    Settled (m >>= f) := by
  rcases h with ⟨a, n, h⟩ | h
  · rcases hf a with ⟨b, k, hb⟩ | hb
    · exact Or.inl ⟨b, _, h.bind hb⟩
    · exact Or.inr (h.bind_allFail hb)
  · exact Or.inr h.bind

end Parm

namespace Parm.Edge

/-- the noisy sum of two vectors, the operation, the decryption -/
def attempt (f : (T : Type) → Arith T → T → T → M T) (x y w : List Int) : M Int := do
  let z ← (arithCt scheme cloud).noisy true (enc x) (enc y)
  let r ← f _ (arithCt scheme cloud) z (enc w)
  parmDecrypt ck cloud.build r

theorem refutes {f : (T : Type) → Arith T → T → T → M T} {g : Int → Int → Int}
    (hf : ∀ z w, Settled (f _ (arithCt scheme cloud) z w)) (x y w : List Int) (hx : ∀ d ∈ x, IsDigit d)
    (hy : ∀ d ∈ y, IsDigit d) (hw : ∀ d ∈ w, IsDigit d) (lx : x.length ≤ 3) (ly : y.length ≤ 3) (lw : w.length ≤ 3)
    {a : Int}
    (hs : inOrder (attempt f x y w) = some a)
    (hne : a ≠ g (value x + value y) (value w)) :
    (∃ n, Returns (attempt f x y w) a n) ∧ ¬ SafeOnNoisy f g := by
  have hsettled : Settled (attempt f x y w) :=
    (((schemeRel_eq scheme).ctAddNoisy cloud (CRel.refl (enc x)) (CRel.refl (enc y))).left).bind
      fun z => (hf z _).bind fun r => settled_decrypt _ _ _
  obtain ⟨n, hr⟩ := hsettled.returns hs
  refine ⟨⟨n, hr⟩, fun safe => hne ?_⟩
  obtain ⟨r, k, h1, h2⟩ := safe st rfl (valid_enc x hx) (valid_enc y hy) (valid_enc w hw) (by simpa [enc] using lx)
    (by simpa [enc] using ly) (by simpa [enc] using lw)
  have h3 : Returns (attempt f x y w) (g (value x + value y) (value w)) (k + 0) := by
    have := h1.bind h2
    rw [bind_assoc] at this
    exact this
  exact (hr.unique h3).1

end Parm.Edge

namespace Parm

/-- **C76**, products: the noisy sum `2 + 0 = 2` times the fresh `1` decrypts to `0`, in every order of execution. -/
theorem C76_mul : (∃ n, Returns (Edge.attempt (fun _ A z w => A.mul z w) [0, 1] [0, 0] [1]) 0 n) ∧
    ¬ SafeOnNoisy (fun _ A z w => A.mul z w) (fun v u => v * u) :=
  Edge.refutes (fun z w => ((schemeRel_eq Edge.scheme).ctMul Edge.cloud (CRel.refl z) (CRel.refl w)).left) _ _ _
    (by unfold IsDigit; decide) (by unfold IsDigit; decide) (by unfold IsDigit; decide) (by decide) (by decide)
    (by decide) (by decide +kernel) (by decide)

/-- **C76**, squares: the square of the noisy sum `(-3) + 1 = -2` decrypts to `-12`. -/
theorem C76_squ : (∃ n, Returns (Edge.attempt (fun _ A z _ => A.squ z) [-1, -1, 0] [1, 0, 0] []) (-12) n) ∧
    ¬ SafeOnNoisy (fun _ A z _ => A.squ z) (fun v _ => v * v) :=
  Edge.refutes (fun z _ => ((schemeRel_eq Edge.scheme).ctSqu Edge.cloud (CRel.refl z)).left) _ _ _
    (by unfold IsDigit; decide) (by unfold IsDigit; decide) (by simp) (by decide) (by decide)
    (by decide) (by decide +kernel) (by decide)

/-- **C76**, ReLU: of the noisy sum `(-7) + (-7) = -14` it decrypts to `-6` instead of `0`. -/
theorem C76_relu : (∃ n, Returns (Edge.attempt (fun _ A z _ => A.relu z) [-1, -1, -1] [-1, -1, -1] []) (-6) n) ∧
    ¬ SafeOnNoisy (fun _ A z _ => A.relu z) (fun v _ => max 0 v) :=
  Edge.refutes (fun z _ => ((schemeRel_eq Edge.scheme).ctRelu Edge.cloud (CRel.refl z)).left) _ _ _
    (by unfold IsDigit; decide) (by unfold IsDigit; decide) (by simp) (by decide) (by decide)
    (by decide) (by decide +kernel) (by decide)

end Parm
