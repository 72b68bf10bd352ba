import Verif.Proof.Relation
import Verif.Proof.ScalarMul

/-!
# Every operation preserves a relation the primitives preserve
-/

namespace Parm

/-- A relation between the ciphertexts of two schemes that all primitives preserve. -/
structure SchemeRel (S S' : Scheme) (R : S.C → S'.C → Prop) : Prop where
  add : ∀ {a a' b b'}, R a a' → R b b' → R (S.add a b) (S'.add a' b')
  neg : ∀ {a a'}, R a a' → R (S.neg a) (S'.neg a')
  mulC : ∀ {a a'} k, R a a' → R (S.mulC a k) (S'.mulC a' k)
  addPt : ∀ {a a'} p, R a a' → R (S.addPt a p) (S'.addPt a' p)
  pbs : ∀ {a a'} acc, R a a' → R (S.pbs acc a) (S'.pbs acc a')

/-- words: both encrypted, with related ciphertexts, or trivial with the same plaintext -/
inductive WRel {C C' : Type} (R : C → C' → Prop) : Word C → Word C' → Prop
  | ct {c c'} (m : Nat) : R c c' → WRel R ⟨.ct c, m⟩ ⟨.ct c', m⟩
  | triv (p : BitVec 64) (m : Nat) : WRel R ⟨.triv p, m⟩ ⟨.triv p, m⟩

abbrev CRel {C C' : Type} (R : C → C' → Prop) := List.Forall₂ (WRel R)

section
variable {C C' : Type} {R : C → C' → Prop}

theorem WRel.trivWord (pc : Cloud) (k : Int) : WRel R (encryptWordTriv C pc k) (encryptWordTriv C' pc k) :=
  WRel.triv _ _

theorem CRel.replicate (pc : Cloud) (n : Nat) :
    CRel R (List.replicate n (encryptWordTriv C pc 0)) (List.replicate n (encryptWordTriv C' pc 0)) := by
  induction n with
  | zero => exact .nil
  | succ n ih => exact .cons (WRel.trivWord pc 0) ih

theorem CRel.trivCt (pc : Cloud) (n : Nat) : CRel R (trivCt C pc n) (trivCt C' pc n) := CRel.replicate pc n

theorem CRel.append {x y : Ctxt C} {x' y' : Ctxt C'} (h : CRel R x x') (g : CRel R y y') :
    CRel R (x ++ y) (x' ++ y') := List.rel_append h g

theorem CRel.take {x : Ctxt C} {x' : Ctxt C'} (h : CRel R x x') (n : Nat) :
    CRel R (x.take n) (x'.take n) := List.forall₂_take n h

theorem CRel.drop {x : Ctxt C} {x' : Ctxt C'} (h : CRel R x x') (n : Nat) :
    CRel R (x.drop n) (x'.drop n) := List.forall₂_drop n h

theorem CRel.ctShift {x : Ctxt C} {x' : Ctxt C'} (h : CRel R x x') (pc : Cloud) (k : Nat) :
    CRel R (ctShift pc x k) (ctShift pc x' k) := by
  unfold Parm.ctShift
  split
  · exact h
  · exact (CRel.trivCt pc k).append h

theorem WRel.isTrivZero {w : Word C} {w' : Word C'} (h : WRel R w w') : w.isTrivZero = w'.isTrivZero := by
  cases h <;> rfl

theorem WRel.isTriv {w : Word C} {w' : Word C'} (h : WRel R w w') : w.isTriv = w'.isTriv := by
  cases h <;> rfl

theorem CRel.rzero {x : Ctxt C} {x' : Ctxt C'} (h : CRel R x x') : rzero x = rzero x' := by
  unfold Parm.rzero
  induction h with
  | nil => rfl
  | cons hw _ ih =>
    rw [List.takeWhile_cons, List.takeWhile_cons, hw.isTrivZero]
    split
    · simp [ih]
    · rfl

theorem CRel.lzero {x : Ctxt C} {x' : Ctxt C'} (h : CRel R x x') : lzero x = lzero x' := by
  unfold Parm.lzero
  exact CRel.rzero (List.rel_reverse h)

end

section
variable {S S' : Scheme} {R : S.C → S'.C → Prop} (H : SchemeRel S S' R) (pc : Cloud)

/-- no two ciphertexts are related -/
abbrev NoRel {C C' : Type} (R : C → C' → Prop) : Prop := ∀ c c', ¬ R c c'

include H

theorem SchemeRel.wadd {a b : Word S.C} {a' b' : Word S'.C} (h : WRel R a a') (g : WRel R b b') :
    WRel R (Word.add S a b) (Word.add S' a' b') := by
  cases h with
  | ct m r => cases g with
    | ct m' r' => exact WRel.ct m (H.add r r')
    | triv p m' => exact WRel.ct m (H.addPt p r)
  | triv q m => cases g with
    | ct m' r' => exact WRel.ct m (H.addPt q r')
    | triv p m' => exact WRel.triv _ m

theorem SchemeRel.wopp {a : Word S.C} {a' : Word S'.C} (h : WRel R a a') :
    WRel R (Word.opp S a) (Word.opp S' a') := by
  cases h with
  | ct m r => exact WRel.ct m (H.neg r)
  | triv q m => exact WRel.triv _ m

theorem SchemeRel.wsub {a b : Word S.C} {a' b' : Word S'.C} (h : WRel R a a') (g : WRel R b b') :
    WRel R (Word.sub S a b) (Word.sub S' a' b') := H.wadd h (H.wopp g)

theorem SchemeRel.waddHalf {a : Word S.C} {a' : Word S'.C} (h : WRel R a a') :
    WRel R (Word.addHalf S a) (Word.addHalf S' a') := by
  cases h with
  | ct m r => exact WRel.ct m (H.addPt _ r)
  | triv q m => exact WRel.triv _ m

theorem SchemeRel.wmulConst {a : Word S.C} {a' : Word S'.C} (h : WRel R a a') (k : Int) :
    WRel R (Word.mulConst S a k) (Word.mulConst S' a' k) := by
  have : ∀ w, WRel R (match a.ct with
      | .ct ca => { a with ct := .ct (S.mulC ca w) }
      | .triv pa => { a with ct := .triv (pa * w) }) (match a'.ct with
      | .ct ca => { a' with ct := .ct (S'.mulC ca w) }
      | .triv pa => { a' with ct := .triv (pa * w) }) := by
    intro w
    cases h with
    | ct m r => exact WRel.ct m (H.mulC _ r)
    | triv q m => exact WRel.triv _ m
  unfold Word.mulConst
  dsimp only
  split
  · exact H.wopp (this _)
  · exact this _

/-- `Z` is `NoRel R` -/
theorem SchemeRel.evalLut5Float {c : Word S.C} {c' : Word S'.C} (h : WRel R c c') (lut : List Int) :
    RelM (NoRel R) (WRel R) (evalLut5Float S pc c lut) (evalLut5Float S' pc c' lut) := by
  cases h with
  | ct m r =>
    by_cases hl : pc.msgMod * pc.carryMod / 2 > lut.length
    · refine Or.inr ⟨?_, ?_⟩
      · unfold Parm.evalLut5Float
        dsimp only
        rw [if_pos hl]
        exact Returns.bumpPbs.bind_allFail (Fails.panic _).allFail
      · unfold Parm.evalLut5Float
        dsimp only
        rw [if_pos hl]
        exact Returns.bumpPbs.bind_allFail (Fails.panic _).allFail
    · refine Or.inl ⟨⟨.ct (S.pbs (genNoPaddingAcc pc (fun x => lut.getD x 0)) _), pc.msgMod⟩,
        ⟨.ct (S'.pbs (genNoPaddingAcc pc (fun x => lut.getD x 0)) _), pc.msgMod⟩, 1, ?_, ?_, WRel.ct _ (H.pbs _ r),
        fun z => absurd r (z _ _)⟩
      · unfold Parm.evalLut5Float
        dsimp only
        rw [if_neg hl]
        exact Returns.bumpPbs.bindEq rfl (Returns.pure _)
      · unfold Parm.evalLut5Float
        dsimp only
        rw [if_neg hl]
        exact Returns.bumpPbs.bindEq rfl (Returns.pure _)
  | triv q m =>
    unfold Parm.evalLut5Float
    dsimp only
    have hs : ∀ i, RelM (NoRel R) (· = ·) (Parm.idx lut i) (Parm.idx lut i) := fun i =>
      RelM.idx (List.forall₂_same.2 fun _ _ => rfl) i
    refine RelM.bind (Q := (· = ·)) (RelM.ite (fun _ => hs _) fun _ => RelM.ite (fun _ =>
      (hs _).bind (fun a b e => by subst e; exact RelM.pure rfl)) fun _ => RelM.panic _ _) ?_
    rintro fm _ rfl
    refine RelM.ite (fun _ => RelM.pure ?_) (fun _ => RelM.pure ?_)
    · exact H.waddHalf (WRel.trivWord pc _)
    · exact WRel.trivWord pc _

theorem SchemeRel.evalLut5Uint {c : Word S.C} {c' : Word S'.C} (h : WRel R c c') (lut : List Nat) :
    RelM (NoRel R) (WRel R) (evalLut5Uint S pc c lut) (evalLut5Uint S' pc c' lut) :=
  H.evalLut5Float pc h _

theorem SchemeRel.pbsNonneg {c : Word S.C} {c' : Word S'.C} (h : WRel R c c') :
    RelM (NoRel R) (WRel R) (pbsNonneg S pc c) (pbsNonneg S' pc c') := by
  unfold Parm.pbsNonneg
  exact (H.evalLut5Float pc h _).bind fun a b hab => RelM.pure (H.waddHalf hab)

theorem SchemeRel.pbsSqu3 {c : Word S.C} {c' : Word S'.C} (h : WRel R c c') (pos : Nat) :
    RelM (NoRel R) (WRel R) (pbsSqu3 S pc c pos) (pbsSqu3 S' pc c' pos) := by
  unfold Parm.pbsSqu3
  split
  · exact H.evalLut5Uint pc h _
  · exact RelM.pure (WRel.trivWord pc 0)
  · exact H.evalLut5Uint pc h _
  · exact H.evalLut5Uint pc h _
  · exact H.evalLut5Uint pc h _
  · exact H.evalLut5Uint pc h _
  · exact RelM.panic _ _

theorem SchemeRel.opposite {x : Ctxt S.C} {x' : Ctxt S'.C} (h : CRel R x x') :
    CRel R (x.map (Word.opp S)) (x'.map (Word.opp S')) := by
  induction h with
  | nil => exact .nil
  | cons hw _ ih => exact .cons (H.wopp hw) ih

omit H in
theorem zipInplace_rel {C C' : Type} {R : C → C' → Prop} {op : Word C → Word C → Word C}
    {op' : Word C' → Word C' → Word C'}
    (hop : ∀ {a b a' b'}, WRel R a a' → WRel R b b' → WRel R (op a b) (op' a' b')) :
    ∀ {x y : Ctxt C} {x' y' : Ctxt C'}, CRel R x x' → CRel R y y' →
      CRel R (zipInplace op x y) (zipInplace op' x' y') := by
  intro x y x' y' hx
  induction hx generalizing y y' with
  | nil =>
    intro hy
    cases hy with
    | nil => exact .nil
    | cons _ _ => exact .nil
  | cons hw hx ih =>
    intro hy
    cases hy with
    | nil => exact .cons hw hx
    | cons hw' hy => exact .cons (hop hw hw') (ih hy)

theorem SchemeRel.addSubImpl (isAdd refresh : Bool) {x y : Ctxt S.C} {x' y' : Ctxt S'.C}
    (hx : CRel R x x') (hy : CRel R y y') :
    RelM (NoRel R) (CRel R) (addSubImpl S isAdd pc x y refresh) (addSubImpl S' isAdd pc x' y' refresh) := by
  unfold Parm.addSubImpl
  dsimp only
  rw [hx.rzero, hy.rzero, hx.lzero, hy.lzero, hx.length_eq, hy.length_eq]
  refine RelM.ite (fun _ => RelM.pure ?_) fun _ => RelM.ite (fun _ => RelM.pure hx) fun _ => ?_
  · split
    · exact hy
    · exact H.opposite hy
  · obtain ⟨wlen, hw⟩ : ∃ n, n = max (x'.length - Parm.lzero x') (y'.length - Parm.lzero y') := ⟨_, rfl⟩
    obtain ⟨r, hr⟩ : ∃ n, n = max (Parm.rzero x') (Parm.rzero y') := ⟨_, rfl⟩
    rw [← hw, ← hr]
    have hw1 : CRel R (if isAdd = true then
          zipInplace (Word.add S) (x.take wlen ++ List.replicate (wlen - x'.length) (encryptWordTriv S.C pc 0)) y
        else zipInplace (Word.sub S) (x.take wlen ++ List.replicate (wlen - x'.length) (encryptWordTriv S.C pc 0)) y)
        (if isAdd = true then
          zipInplace (Word.add S') (x'.take wlen ++ List.replicate (wlen - x'.length) (encryptWordTriv S'.C pc 0)) y'
        else zipInplace (Word.sub S') (x'.take wlen ++ List.replicate (wlen - x'.length) (encryptWordTriv S'.C pc 0)) y') := by
      have h0 := (hx.take wlen).append (CRel.replicate pc (wlen - x'.length))
      split
      · exact zipInplace_rel H.wadd h0 hy
      · exact zipInplace_rel H.wsub h0 hy
    generalize (if isAdd = true then
          zipInplace (Word.add S) (x.take wlen ++ List.replicate (wlen - x'.length) (encryptWordTriv S.C pc 0)) y
        else zipInplace (Word.sub S) (x.take wlen ++ List.replicate (wlen - x'.length) (encryptWordTriv S.C pc 0)) y)
      = w at hw1 ⊢
    generalize (if isAdd = true then
          zipInplace (Word.add S') (x'.take wlen ++ List.replicate (wlen - x'.length) (encryptWordTriv S'.C pc 0)) y'
        else zipInplace (Word.sub S') (x'.take wlen ++ List.replicate (wlen - x'.length) (encryptWordTriv S'.C pc 0)) y')
      = w' at hw1 ⊢
    have hq : CRel R (Parm.trivCt S.C pc wlen) (Parm.trivCt S'.C pc wlen) := CRel.trivCt pc wlen
    rw [hq.length_eq]
    refine RelM.ite (fun _ => RelM.err _ _) fun _ => ?_
    refine RelM.bind (RelM.parFor (Q := WRel R) (hq.drop r).length_eq ?_) ?_
    · intro i hi hi'
      refine (RelM.idx (hw1.drop r) i).bind fun wi wi' hwi => ?_
      refine RelM.bind (Q := WRel R) (RelM.ite (fun _ => ?_) (fun _ => RelM.pure (H.wmulConst hwi 3))) ?_
      · exact (RelM.idx hw1 _).bind fun wp wp' hwp => RelM.pure (H.wadd (H.wmulConst hwi 3) hwp)
      · intro a b hab
        exact H.evalLut5Uint pc hab _
    · intro qhi qhi' hqhi
      have hq' := (hq.take r).append hqhi
      refine RelM.bind (RelM.seqFor (Q := WRel R) hw1.length_eq ?_) ?_
      · intro i hi hi'
        refine (RelM.idx hq' i).bind fun qi qi' hqi => ?_
        have hs := H.wsub (hw1.get hi hi') (H.wmulConst hqi 2)
        refine RelM.ite (fun _ => ?_) (fun _ => RelM.pure hs)
        exact (RelM.idx hq' _).bind fun qp qp' hqp => RelM.pure (H.wadd hs hqp)
      · intro u u' hu
        refine RelM.bind (Q := CRel R) (RelM.ite (fun _ => ?_) (fun _ => RelM.pure (CRel.drop hu r))) ?_
        · refine RelM.parFor (Q := WRel R) (hq.drop r).length_eq ?_
          intro i hi hi'
          exact (RelM.idx (CRel.drop hu r) i).bind fun a b hab => H.evalLut5Uint pc hab _
        · intro z z' hz
          have hlast : ∀ {l : Ctxt S.C} {l' : Ctxt S'.C}, CRel R l l' →
              Option.Rel (WRel R) l.getLast? l'.getLast? := by
            intro l l' hll
            rw [List.getLast?_eq_getElem?, List.getLast?_eq_getElem?, hll.length_eq]
            by_cases h0 : l'.length - 1 < l'.length
            · rw [List.getElem?_eq_getElem h0, List.getElem?_eq_getElem (by rw [hll.length_eq]; exact h0)]
              exact Option.Rel.some (hll.get _ h0)
            · rw [List.getElem?_eq_none (Nat.not_lt.1 (hll.length_eq ▸ h0)), List.getElem?_eq_none (Nat.not_lt.1 h0)]
              exact Option.Rel.none
          have hl := hlast hq'
          generalize (List.take r (Parm.trivCt S.C pc wlen) ++ qhi).getLast? = o at hl ⊢
          generalize (List.take r (Parm.trivCt S'.C pc wlen) ++ qhi').getLast? = o' at hl ⊢
          cases hl with
          | some hab => exact RelM.pure (((CRel.take hu r).append hz).append (.cons hab .nil))
          | none => exact RelM.panic _ _

theorem SchemeRel.ctAdd {x y : Ctxt S.C} {x' y' : Ctxt S'.C} (hx : CRel R x x') (hy : CRel R y y') :
    RelM (NoRel R) (CRel R) (ctAdd S pc x y) (ctAdd S' pc x' y') := (H.addSubImpl pc true true hx hy).call

theorem SchemeRel.ctSub {x y : Ctxt S.C} {x' y' : Ctxt S'.C} (hx : CRel R x x') (hy : CRel R y y') :
    RelM (NoRel R) (CRel R) (ctSub S pc x y) (ctSub S' pc x' y') := (H.addSubImpl pc false true hx hy).call

theorem SchemeRel.ctAddNoisy {x y : Ctxt S.C} {x' y' : Ctxt S'.C} (hx : CRel R x x') (hy : CRel R y y') :
    RelM (NoRel R) (CRel R) (ctAddNoisy S pc x y) (ctAddNoisy S' pc x' y') := (H.addSubImpl pc true false hx hy).call

theorem SchemeRel.ctSubNoisy {x y : Ctxt S.C} {x' y' : Ctxt S'.C} (hx : CRel R x x') (hy : CRel R y y') :
    RelM (NoRel R) (CRel R) (ctSubNoisy S pc x y) (ctSubNoisy S' pc x' y') := (H.addSubImpl pc false false hx hy).call

omit H in
theorem RelM.i64Op {Z : Prop} (b : Build) (x : Int) : RelM Z (· = ·) (i64Op b x) (i64Op b x) := by
  unfold Parm.i64Op
  refine RelM.ite (fun _ => RelM.pure rfl) fun _ => ?_
  cases b
  · exact RelM.panic _ _
  · exact RelM.pure rfl

omit H in
theorem RelM.i32Op {Z : Prop} (b : Build) (x : Int) : RelM Z (· = ·) (i32Op b x) (i32Op b x) := by
  unfold Parm.i32Op
  refine RelM.ite (fun _ => RelM.pure rfl) fun _ => ?_
  cases b
  · exact RelM.panic _ _
  · exact RelM.pure rfl

theorem SchemeRel.addConstImpl {x : Ctxt S.C} {x' : Ctxt S'.C} (hx : CRel R x x') (k : Int) :
    RelM (NoRel R) (CRel R) (addConstImpl S pc x k) (addConstImpl S' pc x' k) := by
  unfold Parm.addConstImpl
  refine RelM.ite (fun _ => RelM.pure hx) fun _ => ?_
  refine (RelM.i64Op _ _).bind ?_
  rintro a _ rfl
  refine H.ctAdd pc hx ?_
  generalize List.range _ = l
  induction l with
  | nil => exact .nil
  | cons _ _ ih => exact .cons (WRel.trivWord pc _) ih

theorem SchemeRel.ctAddConst {x : Ctxt S.C} {x' : Ctxt S'.C} (hx : CRel R x x') (k : Int) :
    RelM (NoRel R) (CRel R) (ctAddConst S pc x k) (ctAddConst S' pc x' k) := (H.addConstImpl pc hx k).call

theorem SchemeRel.sgnFirst {x : Ctxt S.C} {x' : Ctxt S'.C} (hx : CRel R x x') (j : Nat)
    {b : Word S.C} {b' : Word S'.C} (hb : WRel R b b') :
    RelM (NoRel R) (WRel R) (sgnFirst S pc x j b) (sgnFirst S' pc x' j b') := by
  have step : ∀ (i : Nat) {b : Word S.C} {b' : Word S'.C}, WRel R b b' →
      RelM (NoRel R) (WRel R)
        (if sgnGamma * j + i < x.length then do
          let xi ← idx x (sgnGamma * j + i)
          let xi := if i = 0 then xi else Word.mulConst S xi (2 ^ i : Nat)
          pure (Word.add S b xi)
        else pure b)
        (if sgnGamma * j + i < x'.length then do
          let xi ← idx x' (sgnGamma * j + i)
          let xi := if i = 0 then xi else Word.mulConst S' xi (2 ^ i : Nat)
          pure (Word.add S' b' xi)
        else pure b') := by
    intro i b b' hb
    rw [hx.length_eq]
    refine RelM.ite (fun _ => ?_) (fun _ => RelM.pure hb)
    refine (RelM.idx hx _).bind fun xi xi' hxi => RelM.pure (H.wadd hb ?_)
    split
    · exact hxi
    · exact H.wmulConst hxi _
  unfold Parm.sgnFirst
  refine RelM.bind (Q := WRel R) ?_ ?_
  · rw [hx.length_eq]
    refine RelM.ite (fun _ => ?_) (fun _ => RelM.pure hb)
    refine (RelM.idx hx _).bind fun x3 x3' hx3 => ?_
    refine RelM.bind (Q := WRel R) (RelM.ite (fun _ => RelM.pure (H.wmulConst hx3 8))
      (fun _ => H.evalLut5Uint pc hx3 _)) fun a a' ha => RelM.pure (H.wadd hb ha)
  · intro b b' hb
    exact (step 0 hb).bind fun b b' hb => (step 1 hb).bind fun b b' hb => step 2 hb

theorem SchemeRel.foldlAdd {l : List (Word S.C)} {l' : List (Word S'.C)} (h : CRel R l l') :
    ∀ {b : Word S.C} {b' : Word S'.C}, WRel R b b' →
      WRel R (l.foldl (Word.add S) b) (l'.foldl (Word.add S') b') := by
  induction h with
  | nil => exact fun hb => hb
  | cons hw _ ih => exact fun hb => ih (H.wadd hb hw)

theorem SchemeRel.sgnNext {x : Ctxt S.C} {x' : Ctxt S'.C} (hx : CRel R x x') (j : Nat)
    {b : Word S.C} {b' : Word S'.C} (hb : WRel R b b') :
    RelM (NoRel R) (WRel R) (sgnNext S pc x j b) (sgnNext S' pc x' j b') := by
  unfold Parm.sgnNext
  have ht : CRel R (Parm.trivCt S.C pc sgnGamma) (Parm.trivCt S'.C pc sgnGamma) := CRel.trivCt pc _
  refine RelM.bind (RelM.parFor (Q := WRel R) ht.length_eq ?_) fun s s' hs => RelM.pure (H.foldlAdd hs hb)
  intro i hi hi'
  rw [hx.length_eq]
  exact RelM.ite (fun _ => (RelM.idx hx _).bind fun xi xi' hxi => H.evalLut5Uint pc hxi _)
    (fun _ => RelM.pure (ht.get hi hi'))

theorem SchemeRel.sgnRecursionRaw : ∀ (fuel : Nat) {x : Ctxt S.C} {x' : Ctxt S'.C} (_ : CRel R x x') (first : Bool),
    RelM (NoRel R) (CRel R) (sgnRecursionRaw S pc fuel x first) (sgnRecursionRaw S' pc fuel x' first) := by
  intro fuel
  induction fuel with
  | zero =>
    intro x x' hx first
    unfold Parm.sgnRecursionRaw
    rw [hx.length_eq]
    exact RelM.ite (fun _ => RelM.pure (CRel.trivCt pc 1)) fun _ => RelM.ite (fun _ => RelM.pure hx)
      fun _ => RelM.panic _ _
  | succ fuel ih =>
    intro x x' hx first
    unfold Parm.sgnRecursionRaw
    rw [hx.length_eq]
    refine RelM.ite (fun _ => RelM.pure (CRel.trivCt pc 1)) fun _ => RelM.ite (fun _ => RelM.pure hx)
      fun _ => ?_
    have ht : ∀ n, CRel R (Parm.trivCt S.C pc n) (Parm.trivCt S'.C pc n) := CRel.trivCt pc
    refine RelM.bind (RelM.parFor (Q := WRel R) (ht _).length_eq ?_) fun b b' hb => ih hb false
    intro i hi hi'
    exact RelM.ite (fun _ => H.sgnFirst pc hx i ((ht _).get hi hi'))
      (fun _ => H.sgnNext pc hx i ((ht _).get hi hi'))

theorem SchemeRel.sgnImpl {x : Ctxt S.C} {x' : Ctxt S'.C} (hx : CRel R x x') :
    RelM (NoRel R) (CRel R) (sgnImpl S pc x) (sgnImpl S' pc x') := by
  unfold Parm.sgnImpl
  rw [hx.length_eq]
  refine RelM.ite (fun _ => RelM.pure .nil) fun _ => RelM.ite (fun _ => RelM.pure hx) fun _ => ?_
  exact (H.sgnRecursionRaw pc _ hx true).bind fun r r' hr => (RelM.idx hr 0).bind fun s s' hs =>
    (H.evalLut5Uint pc hs _).bind fun s s' hs => RelM.pure (.cons hs .nil)

theorem SchemeRel.ctSgn {x : Ctxt S.C} {x' : Ctxt S'.C} (hx : CRel R x x') :
    RelM (NoRel R) (CRel R) (ctSgn S pc x) (ctSgn S' pc x') := (H.sgnImpl pc hx).call

theorem SchemeRel.maxImpl {x y : Ctxt S.C} {x' y' : Ctxt S'.C} (hx : CRel R x x') (hy : CRel R y y') :
    RelM (NoRel R) (CRel R) (maxImpl S pc x y) (maxImpl S' pc x' y') := by
  unfold Parm.maxImpl
  refine (H.ctSub pc hx hy).bind fun r r' hr => ?_
  rw [hr.length_eq]
  refine (H.sgnRecursionRaw pc _ hr true).bind fun s s' hs => (RelM.idx hs 0).bind fun s s' hs =>
    (H.pbsNonneg pc hs).bind fun s s' hs => ?_
  have hxa := hx.append (CRel.replicate (R := R) pc (y'.length - x'.length))
  have hya := hy.append (CRel.replicate (R := R) pc (x'.length - y'.length))
  rw [hx.length_eq, hy.length_eq]
  dsimp only
  rw [hxa.length_eq]
  have ht : ∀ n, CRel R (Parm.trivCt S.C pc n) (Parm.trivCt S'.C pc n) := CRel.trivCt pc
  refine RelM.parFor (Q := WRel R) (ht _).length_eq ?_
  intro i hi hi'
  refine (RelM.idx hxa i).bind fun xi xi' hxi => (RelM.idx hya i).bind fun yi yi' hyi => ?_
  refine RelM.bind (Q := WRel R) (RelM.ite (fun _ => RelM.pure (H.wmulConst hyi 6))
    (fun _ => H.evalLut5Uint pc hyi _)) fun t t' htt => ?_
  exact H.evalLut5Uint pc (H.wadd (H.wadd htt (H.wmulConst hxi 2)) hs) _

theorem SchemeRel.ctMax {x y : Ctxt S.C} {x' y' : Ctxt S'.C} (hx : CRel R x x') (hy : CRel R y y') :
    RelM (NoRel R) (CRel R) (ctMax S pc x y) (ctMax S' pc x' y') := (H.maxImpl pc hx hy).call

theorem SchemeRel.ctRelu {x : Ctxt S.C} {x' : Ctxt S'.C} (hx : CRel R x x') :
    RelM (NoRel R) (CRel R) (ctRelu S pc x) (ctRelu S' pc x') := (H.maxImpl pc .nil hx).call

theorem SchemeRel.roundAtImpl {x : Ctxt S.C} {x' : Ctxt S'.C} (hx : CRel R x x') (p : Nat) :
    RelM (NoRel R) (CRel R) (roundAtImpl S pc x p) (roundAtImpl S' pc x' p) := by
  unfold Parm.roundAtImpl
  rw [hx.length_eq]
  refine RelM.ite (fun _ => RelM.pure hx) fun _ => RelM.ite (fun _ => RelM.pure .nil) fun _ => ?_
  refine (H.ctSgn pc (hx.take (p - 1))).bind fun s s' hs => (RelM.idx hx _).bind fun xp xp' hxp => ?_
  refine RelM.bind (Q := WRel R) ?_ fun y y' hy => (H.evalLut5Uint pc hy _).bind fun r r' hr => ?_
  · rw [hs.length_eq]
    exact RelM.ite (fun _ => (RelM.idx hs 0).bind fun s s' hs => RelM.pure (H.wadd (H.wmulConst hxp 2) hs))
      (fun _ => RelM.pure (H.wmulConst hxp 2))
  · exact H.ctAdd pc ((hx.drop p).ctShift pc p) ((CRel.trivCt pc p).append (.cons hr .nil))

theorem SchemeRel.ctRoundAt {x : Ctxt S.C} {x' : Ctxt S'.C} (hx : CRel R x x') (p : Nat) :
    RelM (NoRel R) (CRel R) (ctRoundAt S pc x p) (ctRoundAt S' pc x' p) := (H.roundAtImpl pc hx p).call

theorem SchemeRel.mulLwe {x y : Word S.C} {x' y' : Word S'.C} (hx : WRel R x x') (hy : WRel R y y') :
    RelM (NoRel R) (WRel R) (mulLwe S pc x y) (mulLwe S' pc x' y') := by
  have hd : ∀ {w : Word S.C} {w' : Word S'.C}, WRel R w w' →
      RelM (NoRel R) (· = ·) (decryptMi (S := S) none w) (decryptMi (S := S') none w') := by
    intro w w' h
    cases h with
    | ct m r =>
      exact Or.inr ⟨(Fails.bind (Fails.err _)).allFail, (Fails.bind (Fails.err _)).allFail⟩
    | triv p m => exact RelM.bind (Q := (· = ·)) (RelM.pure rfl) fun a b e => by subst e; exact RelM.pure rfl
  unfold Parm.mulLwe
  rw [hx.isTriv, hy.isTriv]
  refine RelM.ite (fun _ => ?_) fun _ => RelM.ite (fun _ => ?_) fun _ => ?_
  · exact (hd hx).bind fun a b e => by subst e; exact RelM.pure (H.wmulConst hy _)
  · exact (hd hy).bind fun a b e => by subst e; exact RelM.pure (H.wmulConst hx _)
  · exact H.evalLut5Uint pc (H.wadd (H.wmulConst hx 3) hy) _

theorem SchemeRel.fillMulary {x y : Ctxt S.C} {x' y' : Ctxt S'.C} (hx : CRel R x x') (hy : CRel R y y') :
    RelM (NoRel R) (List.Forall₂ (CRel R)) (fillMulary S pc x y) (fillMulary S' pc x' y') := by
  unfold Parm.fillMulary
  rw [hx.length_eq, hy.length_eq]
  refine RelM.ite (fun _ => RelM.panic _ _) fun _ => ?_
  refine RelM.parFor (by simp) ?_
  intro j hj hj'
  refine (RelM.idx hy j).bind fun yj yj' hyj => ?_
  have hrow : CRel R ((List.replicate x'.length (Parm.trivCt S.C pc (2 * x'.length)))[j])
      ((List.replicate x'.length (Parm.trivCt S'.C pc (2 * x'.length)))[j]) := by
    simp only [List.getElem_replicate]
    exact CRel.trivCt pc _
  refine RelM.bind (RelM.parFor (Q := WRel R) ((hrow.drop j).take _).length_eq ?_) fun m m' hm =>
    RelM.pure (((hrow.take j).append hm).append (hrow.drop _))
  intro i hi hi'
  exact (RelM.idx hx i).bind fun xi xi' hxi => (H.mulLwe pc hxi hyj).expect

theorem SchemeRel.reduceLoop {rows : List (Ctxt S.C)} {rows' : List (Ctxt S'.C)}
    (h : List.Forall₂ (CRel R) rows rows') : ∀ {c o : Ctxt S.C} {c' o' : Ctxt S'.C}, CRel R c c' →
      RelM (NoRel R) (CRel R) (reduceLoop S pc rows c o) (reduceLoop S' pc rows' c' o') := by
  induction h with
  | nil =>
    intro c o c' o' hc
    exact RelM.pure hc
  | cons hr _ ih =>
    intro c o c' o' hc
    unfold Parm.reduceLoop
    exact (H.ctAdd pc hc hr).bind fun n n' hn => ih hn

theorem SchemeRel.reduceMulsquary {rows : List (Ctxt S.C)} {rows' : List (Ctxt S'.C)}
    (h : List.Forall₂ (CRel R) rows rows') :
    RelM (NoRel R) (CRel R) (reduceMulsquary S pc rows) (reduceMulsquary S' pc rows') := by
  unfold Parm.reduceMulsquary
  exact (RelM.idx h 0).bind fun a a' ha => (RelM.idx h 1).bind fun b b' hb =>
    (H.ctAdd pc ha hb).bind fun s s' hs => H.reduceLoop pc (List.forall₂_drop 2 h) hs

theorem SchemeRel.mulKaratsuba {f : Ctxt S.C → Ctxt S.C → M (Ctxt S.C)} {f' : Ctxt S'.C → Ctxt S'.C → M (Ctxt S'.C)}
    (hf : ∀ {x y x' y'}, CRel R x x' → CRel R y y' → RelM (NoRel R) (CRel R) (f x y) (f' x' y'))
    {x y : Ctxt S.C} {x' y' : Ctxt S'.C} (hx : CRel R x x') (hy : CRel R y y') :
    RelM (NoRel R) (CRel R) (mulKaratsuba S pc f x y) (mulKaratsuba S' pc f' x' y') := by
  unfold Parm.mulKaratsuba
  rw [hx.length_eq, hy.length_eq]
  refine RelM.ite (fun _ => RelM.panic _ _) fun _ => ?_
  refine RelM.bind (RelM.par2 (Q := fun r r' => CRel R r.1 r'.1 ∧ CRel R r.2.1 r'.2.1 ∧ CRel R r.2.2 r'.2.2)
    (P := CRel R) ?_ ?_) ?_
  · refine RelM.bind (RelM.par2 (hf (hx.drop _) (hy.drop _)) (hf (hx.take _) (hy.take _))) ?_
    rintro ⟨a, b⟩ ⟨a', b'⟩ ⟨ha, hb⟩
    refine (H.ctAdd pc ha hb).bind fun s s' hs => RelM.pure ⟨ha, hb, ?_⟩
    exact (CRel.trivCt pc _).append (H.opposite hs)
  · refine RelM.bind (RelM.par2 (H.ctAdd pc (hx.take _) (hx.drop _)) (H.ctAdd pc (hy.take _) (hy.drop _))) ?_
    rintro ⟨a, b⟩ ⟨a', b'⟩ ⟨ha, hb⟩
    exact (hf ha hb).bind fun c c' hc => RelM.pure ((CRel.trivCt pc _).append hc)
  · rintro ⟨⟨a, b, n⟩, c⟩ ⟨⟨a', b', n'⟩, c'⟩ ⟨⟨ha, hb, hn⟩, hc⟩
    refine (H.ctAdd pc hc hn).bind fun s s' hs => ?_
    dsimp only at hb ⊢
    rw [hb.length_eq]
    refine RelM.ite (fun _ => H.ctAdd pc (hb.append ha) hs) fun _ => ?_
    exact (H.ctAdd pc hb hs).bind fun t t' htt => H.ctAdd pc (ha.ctShift pc _) htt

theorem SchemeRel.mulImpl : ∀ (fuel : Nat) {x y : Ctxt S.C} {x' y' : Ctxt S'.C}, CRel R x x' → CRel R y y' →
    RelM (NoRel R) (CRel R) (mulImpl S pc fuel x y) (mulImpl S' pc fuel x' y') := by
  intro fuel
  induction fuel with
  | zero =>
    intro x y x' y' hx hy
    have hxa := hx.append (CRel.replicate (R := R) pc (y'.length - x'.length))
    have hya := hy.append (CRel.replicate (R := R) pc (x'.length - y'.length))
    unfold Parm.mulImpl Parm.mulAlign
    rw [hx.length_eq, hy.length_eq]
    dsimp only
    rw [hxa.length_eq]
    refine RelM.ite (fun _ => RelM.pure .nil) fun _ => RelM.ite (fun _ => ?_) fun _ =>
      RelM.ite (fun _ => ?_) fun _ => RelM.ite (fun _ => RelM.panic _ _) fun _ => RelM.err _ _
    · exact (H.fillMulary pc hxa hya).bind fun m m' hm => RelM.idx hm 0
    · exact (H.fillMulary pc hxa hya).bind fun m m' hm => H.reduceMulsquary pc hm
  | succ fuel ih =>
    intro x y x' y' hx hy
    have hxa := hx.append (CRel.replicate (R := R) pc (y'.length - x'.length))
    have hya := hy.append (CRel.replicate (R := R) pc (x'.length - y'.length))
    unfold Parm.mulImpl Parm.mulAlign
    rw [hx.length_eq, hy.length_eq]
    dsimp only
    rw [hxa.length_eq]
    refine RelM.ite (fun _ => RelM.pure .nil) fun _ => RelM.ite (fun _ => ?_) fun _ =>
      RelM.ite (fun _ => ?_) fun _ => RelM.ite (fun _ => ?_) fun _ => RelM.err _ _
    · exact (H.fillMulary pc hxa hya).bind fun m m' hm => RelM.idx hm 0
    · exact (H.fillMulary pc hxa hya).bind fun m m' hm => H.reduceMulsquary pc hm
    · exact H.mulKaratsuba pc (fun h g => (ih h g).call) hxa hya

theorem SchemeRel.ctMul {x y : Ctxt S.C} {x' y' : Ctxt S'.C} (hx : CRel R x x') (hy : CRel R y y') :
    RelM (NoRel R) (CRel R) (ctMul S pc x y) (ctMul S' pc x' y') := (H.mulImpl pc mulFuel hx hy).call

theorem SchemeRel.squ1word {x : Ctxt S.C} {x' : Ctxt S'.C} (hx : CRel R x x') :
    RelM (NoRel R) (CRel R) (squ1word S pc x) (squ1word S' pc x') := by
  unfold Parm.squ1word
  exact (RelM.idx hx 0).bind fun a a' ha => (H.evalLut5Uint pc ha _).bind fun b b' hb =>
    RelM.pure (.cons hb .nil)

theorem SchemeRel.squ23word {x : Ctxt S.C} {x' : Ctxt S'.C} (hx : CRel R x x') :
    RelM (NoRel R) (CRel R) (squ23word S pc x) (squ23word S' pc x') := by
  unfold Parm.squ23word
  rw [hx.length_eq]
  refine RelM.ite (fun _ => RelM.panic _ _) fun _ => ?_
  refine RelM.bind (Q := WRel R) (RelM.ite (fun _ => ?_) fun _ => ?_) fun v v' hv => ?_
  · exact (RelM.idx hx _).bind fun a a' ha => (RelM.idx hx _).bind fun b b' hb =>
      RelM.pure (H.wadd (H.wmulConst ha 2) hb)
  · exact (RelM.idx hx _).bind fun a a' ha => (RelM.idx hx _).bind fun b b' hb =>
      (RelM.idx hx _).bind fun c c' hc => RelM.pure
        (H.wadd (H.wmulConst (H.wadd (H.wmulConst ha 2) hb) 2) hc)
  · have ht : ∀ n, CRel R (Parm.trivCt S.C pc n) (Parm.trivCt S'.C pc n) := CRel.trivCt pc
    refine RelM.bind (RelM.parFor (Q := WRel R) (ht _).length_eq fun i _ _ => H.pbsSqu3 pc hv _) ?_
    intro r r' hr
    exact (RelM.idx hr 0).bind fun a a' ha => RelM.pure (.cons ha (.cons (WRel.trivWord pc 0)
      (CRel.drop hr 1)))

theorem SchemeRel.squDnq {f : Ctxt S.C → M (Ctxt S.C)} {f' : Ctxt S'.C → M (Ctxt S'.C)}
    (hf : ∀ {x x'}, CRel R x x' → RelM (NoRel R) (CRel R) (f x) (f' x'))
    {x : Ctxt S.C} {x' : Ctxt S'.C} (hx : CRel R x x') :
    RelM (NoRel R) (CRel R) (squDnq S pc f x) (squDnq S' pc f' x') := by
  unfold Parm.squDnq
  rw [hx.length_eq]
  refine RelM.bind (RelM.par3 (hf (hx.drop _)) (hf (hx.take _)) (O := CRel R) ?_) ?_
  · exact (H.ctMul pc (hx.take _) (hx.drop _)).bind fun c c' hc => RelM.pure (hc.ctShift pc _)
  · rintro ⟨a, b, c⟩ ⟨a', b', c'⟩ ⟨ha, hb, hc⟩
    dsimp only at hb ⊢
    rw [hb.length_eq]
    refine RelM.ite (fun _ => H.ctAdd pc (hb.append ha) hc) fun _ => ?_
    exact (H.ctAdd pc hb hc).bind fun t t' htt => H.ctAdd pc (ha.ctShift pc _) htt

theorem SchemeRel.squImpl : ∀ (fuel : Nat) {x : Ctxt S.C} {x' : Ctxt S'.C}, CRel R x x' →
    RelM (NoRel R) (CRel R) (squImpl S pc fuel x) (squImpl S' pc fuel x') := by
  intro fuel
  induction fuel with
  | zero =>
    intro x x' hx
    unfold Parm.squImpl
    rw [hx.length_eq]
    exact RelM.ite (fun _ => RelM.pure .nil) fun _ => RelM.ite (fun _ => H.squ1word pc hx) fun _ =>
      RelM.ite (fun _ => H.squ23word pc hx) fun _ => RelM.ite (fun _ => RelM.panic _ _) fun _ => RelM.err _ _
  | succ fuel ih =>
    intro x x' hx
    unfold Parm.squImpl
    rw [hx.length_eq]
    exact RelM.ite (fun _ => RelM.pure .nil) fun _ => RelM.ite (fun _ => H.squ1word pc hx) fun _ =>
      RelM.ite (fun _ => H.squ23word pc hx) fun _ => RelM.ite (fun _ => H.squDnq pc (fun h => (ih h).call) hx)
        fun _ => RelM.err _ _

theorem SchemeRel.ctSqu {x : Ctxt S.C} {x' : Ctxt S'.C} (hx : CRel R x x') :
    RelM (NoRel R) (CRel R) (ctSqu S pc x) (ctSqu S' pc x') := (H.squImpl pc mulFuel hx).call

end

/-! ### Computations on cleartext data only -/

/-- returns the same value under every schedule without bootstrapping, or always fails -/
def Pure0 {α : Type} (m : M α) : Prop := (∃ a, Returns m a 0) ∨ AllFail m

theorem Pure0.pure {α : Type} (a : α) : Pure0 (Pure.pure a) := Or.inl ⟨a, Returns.pure a⟩
theorem Pure0.panic {α : Type} (p : PanicKind) : Pure0 (M.panic p : M α) := Or.inr (Fails.panic p).allFail
theorem Pure0.err {α : Type} (p : ErrKind) : Pure0 (M.err p : M α) := Or.inr (Fails.err p).allFail
theorem Pure0.bind {α β : Type} {m : M α} {f : α → M β} (h : Pure0 m) (hf : ∀ a, Pure0 (f a)) : Pure0 (m >>= f) := by
  rcases h with ⟨a, h⟩ | h
  · rcases hf a with ⟨b, g⟩ | g
    · exact Or.inl ⟨b, h.bind0 g⟩
    · exact Or.inr (h.bind_allFail g)
  · exact Or.inr h.bind
theorem Pure0.ite {α : Type} {c : Prop} [Decidable c] {m m' : M α} (h : Pure0 m) (h' : Pure0 m') :
    Pure0 (if c then m else m') := by split <;> assumption
theorem Pure0.expect {α : Type} {m : M α} (h : Pure0 m) : Pure0 m.expect := by
  rcases h with ⟨a, h⟩ | h
  · exact Or.inl ⟨a, h.expect⟩
  · exact Or.inr h.expect
theorem Pure0.setIdx (l : List Int) (i : Nat) (a : Int) : Pure0 (setIdx l i a) :=
  Pure0.ite (Pure0.pure _) (Pure0.panic _)
theorem Pure0.idx {α : Type} (l : List α) (i : Nat) : Pure0 (idx l i) := by
  unfold Parm.idx; split
  · exact Pure0.pure _
  · exact Pure0.panic _
theorem Pure0.u32Bit (b : Build) (k i : Nat) : Pure0 (u32Bit b k i) := by
  unfold Parm.u32Bit
  refine Pure0.ite (Pure0.pure _) ?_
  cases b
  · exact Pure0.panic _
  · exact Pure0.pure _
theorem Pure0.u32BitPred (b : Build) (k i : Nat) : Pure0 (u32BitPred b k i) := by
  unfold Parm.u32BitPred
  refine (Pure0.u32Bit b k i).bind fun t => Pure0.bind ?_ fun u => Pure0.pure _
  unfold Parm.u32Op
  refine Pure0.ite (Pure0.pure _) ?_
  cases b
  · exact Pure0.panic _
  · exact Pure0.pure _
theorem Pure0.fillWhile {f : Nat → M Int} (hf : ∀ i, Pure0 (f i)) :
    ∀ (n j : Nat) (v : List Int), Pure0 (fillWhile f n j v)
  | 0, _, _ => Pure0.pure _
  | n + 1, j, v => by
    unfold Parm.fillWhile
    exact (hf j).bind fun t => (Pure0.setIdx v j t).bind fun v => Pure0.fillWhile hf n (j + 1) v
theorem Pure0.ktStep (b : Build) (k : Nat) (s : KtSt) : Pure0 (ktStep b k s) := by
  unfold Parm.ktStep
  refine (Pure0.u32Bit b k s.x).bind fun bit => ?_
  refine Pure0.ite (Pure0.ite ?_ (Pure0.ite (Pure0.pure _) (Pure0.pure _)))
    (Pure0.ite ?_ (Pure0.ite (Pure0.pure _) (Pure0.pure _)))
  · exact (Pure0.fillWhile (fun i => Pure0.u32Bit b k i) _ _ _).bind fun v =>
      (Pure0.setIdx _ _ _).bind fun v => Pure0.pure _
  · exact (Pure0.fillWhile (fun i => Pure0.u32BitPred b k i) _ _ _).bind fun v =>
      (Pure0.setIdx _ _ _).bind fun v => Pure0.pure _
theorem Pure0.ktLoop (b : Build) (k : Nat) : ∀ (n : Nat) (s : KtSt), Pure0 (ktLoop b k n s)
  | 0, _ => Pure0.pure _
  | n + 1, s => by
    unfold Parm.ktLoop
    exact (Pure0.ktStep b k s).bind fun s => Pure0.ktLoop b k n s
theorem Pure0.ktFinish (b : Build) (k : Nat) (s : KtSt) : Pure0 (ktFinish b k s) := by
  unfold Parm.ktFinish
  refine Pure0.ite ?_ ?_
  · exact (Pure0.fillWhile (fun i => (Pure0.u32Bit b k i).bind fun t => Pure0.pure _) _ _ _).bind
      fun v => (Pure0.setIdx _ _ _).bind fun v => Pure0.setIdx _ _ _
  · exact (Pure0.fillWhile (fun i => Pure0.u32BitPred b k i) _ _ _).bind fun v =>
      (Pure0.setIdx _ _ _).bind fun v =>
      (Pure0.fillWhile (fun i => Pure0.u32Bit b k i) _ _ _).bind fun v =>
      (Pure0.setIdx _ _ _).bind fun v => Pure0.setIdx _ _ _
theorem Pure0.koyamaTsuruokaVec (b : Build) (k : Nat) : Pure0 (koyamaTsuruokaVec b k) := by
  unfold Parm.koyamaTsuruokaVec
  exact Pure0.ite (Pure0.pure _) (Pure0.ite (Pure0.pure _)
    ((Pure0.ktLoop b k _ _).bind fun s => (Pure0.ktFinish b k s).bind fun v => Pure0.pure _))

theorem Pure0.i64Op (b : Build) (x : Int) : Pure0 (i64Op b x) := by
  unfold Parm.i64Op
  refine Pure0.ite (Pure0.pure _) ?_
  cases b
  · exact Pure0.panic _
  · exact Pure0.pure _

theorem Pure0.shAmt64 (b : Build) (i : Nat) : Pure0 (shAmt64 b i) := by
  unfold Parm.shAmt64
  refine Pure0.ite (Pure0.pure _) ?_
  cases b
  · exact Pure0.panic _
  · exact Pure0.pure _

theorem Pure0.convertFromVecLoop (b : Build) : ∀ (i : Nat) (m : Int) (v : List Int),
    Pure0 (convertFromVecLoop b i m v)
  | _, _, [] => Pure0.pure _
  | i, m, d :: v => by
    unfold Parm.convertFromVecLoop
    refine (Pure0.shAmt64 b i).bind fun sh => Pure0.bind ?_ fun t => (Pure0.i64Op _ _).bind fun m =>
      Pure0.convertFromVecLoop b _ _ v
    exact Pure0.ite (Pure0.pure _) (Pure0.ite (Pure0.pure _) (Pure0.ite (Pure0.i64Op _ _) (Pure0.err _)))

theorem Pure0.convertFromVec (b : Build) (v : List Int) : Pure0 (convertFromVec b v) :=
  Pure0.ite (Pure0.err _) (Pure0.convertFromVecLoop b _ _ v)

theorem Pure0.windShiftsLoop (b : Build) (v : List Int) (l : Nat) : ∀ (fuel sh : Nat),
    Pure0 (windShiftsLoop b v l fuel sh)
  | 0, _ => Pure0.panic _
  | fuel + 1, sh => by
    unfold Parm.windShiftsLoop
    dsimp only
    refine Pure0.ite (Pure0.panic _) ?_
    refine (Pure0.convertFromVec b _).expect.bind fun wi => Pure0.ite (Pure0.pure _) ?_
    exact (Pure0.windShiftsLoop b v l fuel _).bind fun r => Pure0.pure _

theorem Pure0.windShifts (b : Build) (k l : Nat) : Pure0 (windShifts b k l) := by
  unfold Parm.windShifts
  exact (Pure0.koyamaTsuruokaVec b k).bind fun v => Pure0.windShiftsLoop b v l _ _

theorem Pure0.mapIdx {V : Type} (m : List (Nat × V)) (k : Nat) : Pure0 (mapIdx m k) := by
  unfold Parm.mapIdx
  split
  · exact Pure0.pure _
  · exact Pure0.panic _

/-! ### Generic code over the interface -/

/-- the operations of two instances of the interface relate -/
structure ArithRel (Z : Prop) {T T' : Type} (A : Arith T) (A' : Arith T') (Q : T → T' → Prop) : Prop where
  zero : Q A.zero A'.zero
  opp : ∀ {x x'}, Q x x' → RelM Z Q (A.opp x) (A'.opp x')
  shift : ∀ {x x'} k, Q x x' → RelM Z Q (A.shift x k) (A'.shift x' k)
  add : ∀ {x x' y y'}, Q x x' → Q y y' → RelM Z Q (A.add x y) (A'.add x' y')
  sub : ∀ {x x' y y'}, Q x x' → Q y y' → RelM Z Q (A.sub x y) (A'.sub x' y')
  addNoisy : ∀ {x x' y y'}, Q x x' → Q y y' → RelM Z Q (A.addNoisy x y) (A'.addNoisy x' y')
  subNoisy : ∀ {x x' y y'}, Q x x' → Q y y' → RelM Z Q (A.subNoisy x y) (A'.subNoisy x' y')
  addConst : ∀ {x x'} k, Q x x' → RelM Z Q (A.addConst x k) (A'.addConst x' k)
  scalarMul : ∀ {x x'} k, Q x x' → RelM Z Q (A.scalarMul k x) (A'.scalarMul k x')
  sgn : ∀ {x x'}, Q x x' → RelM Z Q (A.sgn x) (A'.sgn x')
  max : ∀ {x x' y y'}, Q x x' → Q y y' → RelM Z Q (A.max x y) (A'.max x' y')
  relu : ∀ {x x'}, Q x x' → RelM Z Q (A.relu x) (A'.relu x')
  mul : ∀ {x x' y y'}, Q x x' → Q y y' → RelM Z Q (A.mul x y) (A'.mul x' y')
  squ : ∀ {x x'}, Q x x' → RelM Z Q (A.squ x) (A'.squ x')
  roundAt : ∀ {x x'} p, Q x x' → RelM Z Q (A.roundAt x p) (A'.roundAt x' p)

section
variable {Z : Prop} {T T' : Type} {A : Arith T} {A' : Arith T'} {Q : T → T' → Prop} (H : ArithRel Z A A' Q)
include H

theorem ArithRel.ascStep {v : List T} {v' : List T'} (h : List.Forall₂ Q v v') (e : AddShift) :
    RelM Z (List.Forall₂ Q) (ascStep A v e) (ascStep A' v' e) := by
  unfold Parm.ascStep
  refine (RelM.idx h _).bind fun l l' hl => (H.opp hl).bind fun nl nl' hnl => (RelM.idx h _).bind fun r r' hr =>
    (H.shift _ hr).bind fun rs rs' hrs => (H.opp hrs).bind fun nr nr' hnr => ?_
  refine RelM.bind (H.add (x := if e.lPos then l else nl) (x' := if e.lPos then l' else nl')
    (y := if e.rPos then rs else nr) (y' := if e.rPos then rs' else nr') ?_ ?_) fun a a' ha =>
    RelM.pure (List.rel_append h (.cons ha .nil))
  · split <;> assumption
  · split <;> assumption

theorem ArithRel.ascLoop : ∀ (c : Asc) {v : List T} {v' : List T'}, List.Forall₂ Q v v' →
    RelM Z (List.Forall₂ Q) (ascLoop A c v) (ascLoop A' c v')
  | [], _, _, h => RelM.pure h
  | e :: es, _, _, h => by
    unfold Parm.ascLoop
    exact (H.ascStep h e).bind fun w w' hw => ArithRel.ascLoop es hw

theorem ArithRel.ascEval (c : Asc) {x : T} {x' : T'} (h : Q x x') :
    RelM Z Q (ascEval A c x) (ascEval A' c x') := by
  unfold Parm.ascEval
  refine RelM.bind (H.ascLoop c (.cons h .nil)) fun v v' hv => ?_
  have hl : Option.Rel Q v.getLast? v'.getLast? := by
    rw [List.getLast?_eq_getElem?, List.getLast?_eq_getElem?, hv.length_eq]
    by_cases h0 : v'.length - 1 < v'.length
    · rw [List.getElem?_eq_getElem h0, List.getElem?_eq_getElem (by rw [hv.length_eq]; exact h0)]
      exact Option.Rel.some (hv.get _ h0)
    · rw [List.getElem?_eq_none (Nat.not_lt.1 (hv.length_eq ▸ h0)), List.getElem?_eq_none (Nat.not_lt.1 h0)]
      exact Option.Rel.none
  generalize v.getLast? = o at hl ⊢
  generalize v'.getLast? = o' at hl ⊢
  cases hl with
  | some h => exact RelM.pure h
  | none => exact RelM.panic _ _

theorem ArithRel.instr {r : List T} {r' : List T'} (h : List.Forall₂ Q r r') (ins : Instr) :
    RelM Z Q (ins.run A r) (ins.run A' r') := by
  have one : ∀ {f : T → M T} {f' : T' → M T'} (i : Nat), (∀ {x x'}, Q x x' → RelM Z Q (f x) (f' x')) →
      RelM Z Q (idx r i >>= f) (idx r' i >>= f') := fun i hf => (RelM.idx h i).bind fun _ _ hx => hf hx
  have two : ∀ {f : T → T → M T} {f' : T' → T' → M T'} (i j : Nat),
      (∀ {x x' y y'}, Q x x' → Q y y' → RelM Z Q (f x y) (f' x' y')) →
      RelM Z Q (idx r i >>= fun x => idx r j >>= f x) (idx r' i >>= fun x => idx r' j >>= f' x) :=
    fun i j hf => (RelM.idx h i).bind fun _ _ hx => (RelM.idx h j).bind fun _ _ hy => hf hx hy
  cases ins with
  | zero => exact RelM.pure H.zero
  | opp i => exact one i H.opp
  | shift i k => exact one i (H.shift k)
  | add i j => exact two i j H.add
  | sub i j => exact two i j H.sub
  | addConst i k => exact one i (H.addConst k)
  | scalarMul k i => exact one i (H.scalarMul k)
  | sgn i => exact one i H.sgn
  | max i j => exact two i j H.max
  | relu i => exact one i H.relu
  | mul i j => exact two i j H.mul
  | squ i => exact one i H.squ
  | roundAt i p => exact one i (H.roundAt p)

theorem ArithRel.prog : ∀ (p : List Instr) {r : List T} {r' : List T'}, List.Forall₂ Q r r' →
    RelM Z (List.Forall₂ Q) (runProg A p r) (runProg A' p r')
  | [], _, _, h => RelM.pure h
  | i :: is, _, _, h => by
    unfold runProg
    exact (H.instr h i).bind fun z z' hz => ArithRel.prog is (List.rel_append h (.cons hz .nil))

theorem ArithRel.affineLoop : ∀ (w : List Int) {a : List T} {a' : List T'} {r : T} {r' : T'},
    List.Forall₂ Q a a' → Q r r' → RelM Z Q (affineLoop A w a r) (affineLoop A' w a' r') := by
  intro w a a' r r' ha
  induction ha generalizing w r r' with
  | nil =>
    intro hr
    cases w <;> exact RelM.pure hr
  | cons hx _ ih =>
    intro hr
    cases w with
    | nil => exact RelM.pure hr
    | cons k w =>
      unfold Parm.affineLoop
      exact (H.scalarMul k hx).bind fun s s' hs => (H.add hr hs).bind fun g g' hg => ih w hg

theorem ArithRel.affinePool (w : List Int) (b : Int) {a : List T} {a' : List T'} (ha : List.Forall₂ Q a a') :
    RelM Z Q (affinePool A w a b) (affinePool A' w a' b) := by
  unfold Parm.affinePool
  exact (H.affineLoop w ha H.zero).bind fun r r' hr => H.addConst b hr

theorem ArithRel.applyWeights : ∀ (w : List Int) {a : List T} {a' : List T'},
    List.Forall₂ Q a a' → RelM Z (List.Forall₂ Q) (applyWeights A w a) (applyWeights A' w a') := by
  intro w a a' ha
  induction ha generalizing w with
  | nil => cases w <;> exact RelM.pure .nil
  | cons hx _ ih =>
    cases w with
    | nil => exact RelM.pure .nil
    | cons k w =>
      unfold Parm.applyWeights
      exact (H.scalarMul k hx).bind fun s s' hs => (ih w).bind fun g g' hg => RelM.pure (.cons hs hg)

theorem ArithRel.maxChunks : ∀ (n : Nat) {a : List T} {a' : List T'}, a.length ≤ n →
    List.Forall₂ Q a a' → RelM Z (List.Forall₂ Q) (maxChunks A a) (maxChunks A' a')
  | n, _, _, hn, .nil => by unfold Parm.maxChunks; exact RelM.pure .nil
  | n, _, _, hn, .cons hx .nil => by unfold Parm.maxChunks; exact RelM.pure (.cons hx .nil)
  | 0, _, _, hn, .cons hx (.cons hy h) => by simp at hn
  | n + 1, _, _, hn, .cons hx (.cons hy h) => by
    unfold Parm.maxChunks
    exact (H.max hx hy).bind fun m m' hm => (ArithRel.maxChunks n (by simp at hn; omega) h).bind fun t t' ht =>
      RelM.pure (.cons hm ht)

theorem ArithRel.maxPoolRecursion : ∀ (fuel : Nat) {a : List T} {a' : List T'},
    List.Forall₂ Q a a' → RelM Z Q (maxPoolRecursion A fuel a) (maxPoolRecursion A' fuel a')
  | _, _, _, .nil => by unfold Parm.maxPoolRecursion; exact RelM.pure H.zero
  | _, _, _, .cons hx .nil => by unfold Parm.maxPoolRecursion; exact RelM.pure hx
  | 0, _, _, .cons hx (.cons hy h) => by unfold Parm.maxPoolRecursion; exact RelM.panic _ _
  | fuel + 1, _, _, .cons hx (.cons hy h) => by
    unfold Parm.maxPoolRecursion
    exact (H.maxChunks _ (Nat.le_refl _) (.cons hx (.cons hy h))).bind fun t t' ht => ArithRel.maxPoolRecursion fuel ht

theorem ArithRel.evalPerc (p : Perceptron) {a : List T} {a' : List T'} (ha : List.Forall₂ Q a a') :
    RelM Z Q (evalPerc A p a) (evalPerc A' p a') := by
  unfold Parm.evalPerc
  cases p.t with
  | MAX =>
    dsimp only
    unfold Parm.maxPool
    refine (H.applyWeights p.w ha).bind fun w w' hw => ?_
    rw [hw.length_eq]
    exact (H.maxPoolRecursion _ hw).bind fun r r' hr => H.addConst _ hr
  | LIN => exact H.affinePool _ _ ha
  | ACT => exact (H.affinePool _ _ ha).bind fun r r' hr => H.relu hr

theorem ArithRel.evalLayer : ∀ (ps : List Perceptron) {a : List T} {a' : List T'} (_ : List.Forall₂ Q a a'),
    RelM Z (List.Forall₂ Q) (evalLayer A ps a) (evalLayer A' ps a')
  | [], _, _, _ => RelM.pure .nil
  | p :: ps, _, _, h => by
    unfold Parm.evalLayer
    exact (H.evalPerc p h).bind fun o o' ho => (ArithRel.evalLayer ps h).bind fun os os' hos => RelM.pure (.cons ho hos)

theorem ArithRel.evalLayers : ∀ (ls : List (List Perceptron)) {i o : List T} {i' o' : List T'},
    List.Forall₂ Q i i' → List.Forall₂ Q o o' →
    RelM Z (List.Forall₂ Q) (evalLayers A ls i o) (evalLayers A' ls i' o')
  | [], _, _, _, _, _, ho => RelM.pure ho
  | l :: ls, _, _, _, _, hi, _ => by
    unfold Parm.evalLayers
    exact (H.evalLayer l hi).bind fun o o' ho => ArithRel.evalLayers ls ho ho

end

/-! ### The ciphertext instance -/

section
variable {S S' : Scheme} {R : S.C → S'.C → Prop} (H : SchemeRel S S' R) (pc : Cloud)
include H

theorem SchemeRel.ascArith : ArithRel (NoRel R) (ascArith S pc) (ascArith S' pc) (CRel R) where
  zero := .nil
  opp h := RelM.pure (H.opposite h)
  shift k h := RelM.pure (CRel.ctShift h pc k)
  add hx hy := H.ctAdd pc hx hy
  sub hx hy := H.ctSub pc hx hy
  addNoisy hx hy := H.ctAddNoisy pc hx hy
  subNoisy hx hy := H.ctSubNoisy pc hx hy
  addConst k h := H.ctAddConst pc h k
  scalarMul _ _ := RelM.panic _ _
  sgn h := H.ctSgn pc h
  max hx hy := H.ctMax pc hx hy
  relu h := H.ctRelu pc h
  mul hx hy := H.ctMul pc hx hy
  squ h := H.ctSqu pc h
  roundAt p h := H.ctRoundAt pc h p

omit H in
theorem mapGet?_rel {V V' : Type} {Q : V → V' → Prop} {m : List (Nat × V)} {m' : List (Nat × V')}
    (h : List.Forall₂ (fun a b => a.1 = b.1 ∧ Q a.2 b.2) m m') (k : Nat) :
    Option.Rel Q (mapGet? m k) (mapGet? m' k) := by
  unfold Parm.mapGet?
  induction h with
  | nil => exact Option.Rel.none
  | cons hab _ ih =>
    rename_i a b _ _ _
    rw [List.find?_cons, List.find?_cons, hab.1]
    cases (b.1 == k) with
    | true => exact Option.Rel.some hab.2
    | false => exact ih

omit H in
theorem RelM.mapIdx {Z : Prop} {V V' : Type} {Q : V → V' → Prop} {m : List (Nat × V)} {m' : List (Nat × V')}
    (h : List.Forall₂ (fun a b => a.1 = b.1 ∧ Q a.2 b.2) m m') (k : Nat) :
    RelM Z Q (mapIdx m k) (mapIdx m' k) := by
  unfold Parm.mapIdx
  have hl := mapGet?_rel h k
  generalize mapGet? m k = o at hl ⊢
  generalize mapGet? m' k = o' at hl ⊢
  cases hl with
  | some h => exact RelM.pure h
  | none => exact RelM.panic _ _

omit H in
theorem mapInsert_rel {V V' : Type} {Q : V → V' → Prop} {v : V} {v' : V'} (hv : Q v v') {m : List (Nat × V)}
    {m' : List (Nat × V')} (h : List.Forall₂ (fun a b => a.1 = b.1 ∧ Q a.2 b.2) m m') (k : Nat) :
    List.Forall₂ (fun a b => a.1 = b.1 ∧ Q a.2 b.2) (mapInsert k v m) (mapInsert k v' m') := by
  induction h with
  | nil => exact .cons ⟨rfl, hv⟩ .nil
  | cons hab hr ih =>
    rename_i a b _ _
    obtain ⟨a1, a2⟩ := a
    obtain ⟨b1, b2⟩ := b
    obtain ⟨e, hq⟩ := hab
    dsimp only at e hq
    subst e
    unfold Parm.mapInsert
    split
    · exact .cons ⟨rfl, hv⟩ (.cons ⟨rfl, hq⟩ hr)
    · exact .cons ⟨rfl, hq⟩ ih

omit H in
theorem initKeys_rel {V V' : Type} {Q : V → V' → Prop} {v : V} {v' : V'} (hv : Q v v') :
    ∀ (ws : List (Int × Nat)) {m : List (Nat × V)} {m' : List (Nat × V')},
    List.Forall₂ (fun a b => a.1 = b.1 ∧ Q a.2 b.2) m m' →
    List.Forall₂ (fun a b => a.1 = b.1 ∧ Q a.2 b.2) (initKeys v ws m) (initKeys v' ws m')
  | [], _, _, h => h
  | (w, _) :: ws, m, m', h => by
    unfold Parm.initKeys
    have hs : (mapGet? m (absU32 w)).isSome = (mapGet? m' (absU32 w)).isSome := by
      have := mapGet?_rel h (absU32 w)
      generalize mapGet? m (absU32 w) = o at this ⊢
      generalize mapGet? m' (absU32 w) = o' at this ⊢
      cases this <;> rfl
    rw [hs]
    refine initKeys_rel hv ws ?_
    split
    · exact h
    · exact mapInsert_rel hv h _

omit H in
/-- `scalarMulImpl` after the recoding -/
def scalarRest (S : Scheme) (pc : Cloud) (xPos : Ctxt S.C) (ws : List (Int × Nat)) : M (Ctxt S.C) := do
  let map ← parFor (initKeys (emptyCt S.C) ws []) (fun _ kv => do
    let chain ← mapIdx pc.asc kv.1
    let v ← (ascEval (ascArith S pc) chain xPos).expect
    pure (kv.1, v))
  let mulary ← seqFor (List.replicate ws.length (emptyCt S.C)) (fun i _ => do
    let wsi ← idx ws i
    let v ← mapIdx map (absU32 wsi.1)
    if wsi.1 < 0 then pure (ctShift pc (ctOpp S v) wsi.2)
    else pure (ctShift pc v wsi.2))
  if mulary.length = 1 then idx mulary 0
  else reduceMulsquary S pc mulary

omit H in
theorem scalarMulImpl_eq (S : Scheme) (pc : Cloud) (k : Int) (x : Ctxt S.C) : scalarMulImpl S pc k x = (do
    let kAbsI ← i32Op pc.build (k.natAbs : Int)
    if (wrapU32 kAbsI).toNat = 0 then pure (emptyCt S.C)
    else if (wrapU32 kAbsI).toNat = 1 then pure (if k ≥ 0 then x else x.map (Word.opp S))
    else do
      let ws ← windShifts pc.build (wrapU32 kAbsI).toNat ascBitlen
      scalarRest S pc (if k ≥ 0 then x else x.map (Word.opp S)) ws) := rfl

theorem SchemeRel.scalarRest {x : Ctxt S.C} {x' : Ctxt S'.C} (hxp : CRel R x x') (ws : List (Int × Nat)) :
    RelM (NoRel R) (CRel R) (scalarRest S pc x ws) (scalarRest S' pc x' ws) := by
  unfold Parm.scalarRest
  have h0 := initKeys_rel (Q := CRel R) (v := emptyCt S.C) (v' := emptyCt S'.C) .nil ws (m := []) (m' := []) .nil
  refine RelM.bind (RelM.parFor (Q := fun a b => a.1 = b.1 ∧ CRel R a.2 b.2) h0.length_eq ?_) ?_
  · intro i hi hi'
    have hk := (h0.get hi hi').1
    simp only [List.get_eq_getElem] at hk
    rw [hk]
    refine (RelM.same (Pure0.mapIdx _ _)).bind ?_
    rintro c _ rfl
    exact ((H.ascArith pc).ascEval c hxp).expect.bind fun v v' hv => RelM.pure ⟨rfl, hv⟩
  · intro m m' hm
    refine RelM.bind (RelM.seqFor (Q := CRel R) (by simp) ?_) ?_
    · intro i hi hi'
      refine (RelM.same (Pure0.idx _ _)).bind ?_
      rintro w _ rfl
      refine (RelM.mapIdx hm _).bind fun v v' hv => RelM.ite (fun _ => RelM.pure ?_) fun _ => RelM.pure ?_
      · exact CRel.ctShift (H.opposite hv) pc _
      · exact CRel.ctShift hv pc _
    · intro rows rows' hr
      rw [hr.length_eq]
      exact RelM.ite (fun _ => RelM.idx hr 0) fun _ => H.reduceMulsquary pc hr

theorem SchemeRel.scalarMulImpl {x : Ctxt S.C} {x' : Ctxt S'.C} (hx : CRel R x x') (k : Int) :
    RelM (NoRel R) (CRel R) (scalarMulImpl S pc k x) (scalarMulImpl S' pc k x') := by
  rw [scalarMulImpl_eq, scalarMulImpl_eq]
  have hxp : CRel R (if k ≥ 0 then x else x.map (Word.opp S)) (if k ≥ 0 then x' else x'.map (Word.opp S')) := by
    split
    · exact hx
    · exact H.opposite hx
  refine (RelM.i32Op _ _).bind ?_
  rintro a _ rfl
  refine RelM.ite (fun _ => RelM.pure .nil) fun _ => RelM.ite (fun _ => RelM.pure hxp) fun _ => ?_
  refine (RelM.same (Pure0.windShifts _ _ _)).bind ?_
  rintro ws _ rfl
  exact H.scalarRest pc hxp ws

theorem SchemeRel.ctScalarMul {x : Ctxt S.C} {x' : Ctxt S'.C} (hx : CRel R x x') (k : Int) :
    RelM (NoRel R) (CRel R) (ctScalarMul S pc k x) (ctScalarMul S' pc k x') := (H.scalarMulImpl pc hx k).call

theorem SchemeRel.arithCt : ArithRel (NoRel R) (arithCt S pc) (arithCt S' pc) (CRel R) := by
  have h := H.ascArith pc
  unfold Parm.arithCt
  constructor
  case scalarMul =>
    intro x x' k h
    dsimp only
    exact H.ctScalarMul pc h k
  case zero => exact h.zero
  case opp => exact h.opp
  case shift => exact h.shift
  case add => exact h.add
  case sub => exact h.sub
  case addNoisy => exact h.addNoisy
  case subNoisy => exact h.subNoisy
  case addConst => exact h.addConst
  case sgn => exact h.sgn
  case max => exact h.max
  case relu => exact h.relu
  case mul => exact h.mul
  case squ => exact h.squ
  case roundAt => exact h.roundAt

end

end Parm
