import Verif.Proof.WeightHash

/-!
# A fast evaluation of weights of products

The same bookkeeping as in `WeightHash.lean`, but for products only, written for evaluation by the kernel: with recursors, in
continuation-passing style, and with a check of every bootstrapped word in place.  A word that was bootstrapped is a hash and
the number of its sample (the hash plus one); 0 stands for no sample.
-/

namespace Parm
namespace Fast

/-- a word: the trivial zero, or an encrypted word of at most one sample -/
inductive FW where
  | z
  | s (fp id : Nat)

/-- a sum of two such words -/
inductive SW where
  | z
  | s (fp a b : Nat)

noncomputable section

/-- evaluate a number before it is used -/
def force {α : Type} (n : Nat) (f : Nat → α) : α := Nat.rec (f 0) (fun k _ => f (Nat.succ k)) n

/-- hash of a bootstrapped word -/
def hb (a : Nat) : Nat := Nat.mod (Nat.add (Nat.mul a (Nat.succ (Nat.mul 2 a))) 7770001) 18446744073709551616

def sel {α : Type} (b : Bool) (t e : α) : α := Bool.rec e t b

def mkK {α : Type} (a : Nat) (k : Nat → Nat → α) : α := force (hb a) fun h => k h (Nat.succ h)

/-- `t` if `a` is no sample or different from `b`, else `e` -/
def ne (a b : Nat) (t e : Bool) : Bool := sel (Nat.beq a 0) t (sel (Nat.beq a b) e t)

def fwRec {α : Type} (w : FW) (a : α) (f : Nat → Nat → α) : α := FW.rec a f w
def swRec {α : Type} (w : SW) (a : α) (f : Nat → Nat → Nat → α) : α := SW.rec a f w

def sumK {α : Type} (a b : FW) (k : SW → α) : α :=
  fwRec a (fwRec b (k .z) fun g j => k (.s g 0 j)) fun f i => fwRec b (k (.s f i 0)) fun g j =>
    force (Nat.mod (Nat.add f g) 18446744073709551616) fun h => k (.s h i j)

def ins0 (i m : Nat) (l : List (Nat × Nat)) : List (Nat × Nat) := sel (Nat.beq i 0) l (HashW.ins i m l)

/-- exact check of `3 (a + b) + c + d` -/
def slow (a b c d : Nat) : Bool := Nat.ble (HashW.quad (ins0 a 3 (ins0 b 3 (ins0 c 1 (ins0 d 1 []))))) 20

def fast4 (a b c d : Nat) : Bool :=
  ne a b (ne a c (ne a d (ne b c (ne b d (ne c d true (slow a b c d)) (slow a b c d)) (slow a b c d)) (slow a b c d))
    (slow a b c d)) (slow a b c d)

/-- carry of the sums `w` and `p` (the previous one) -/
def carryK (w p : SW) (k : Nat → Nat → Bool) : Bool :=
  swRec w (swRec p false fun g _ _ => mkK g k) fun f a b =>
    swRec p (sel (fast4 a b 0 0) (mkK (Nat.mul 3 f) k) false) fun g c d =>
      sel (fast4 a b c d) (mkK (Nat.add (Nat.mul 3 f) g) k) false

/-- minus twice -/
def neg2 (a : Nat) : Nat := Nat.mul 36893488147419103230 a

/-- a refreshed word: the sum `w`, its carry `qf`, `qi`, the previous carry `p` -/
def refK (w : SW) (qf qi : Nat) (p : FW) (k : Nat → Nat → Bool) : Bool :=
  swRec w (mkK (fwRec p (neg2 qf) fun g _ => Nat.add (neg2 qf) g) k) fun f a _ =>
    ne a qi (mkK (fwRec p (Nat.add f (neg2 qf)) fun g _ => Nat.add (Nat.add f (neg2 qf)) g) k) false

/-- number of leading trivial zeros -/
def rz (l : List FW) : Nat := List.rec 0 (fun a _ ih => fwRec a (Nat.succ ih) fun _ _ => 0) l
def len {α : Type} (l : List α) : Nat := List.rec 0 (fun _ _ ih => Nat.succ ih) l
def app {α : Type} (l m : List α) : List α := List.rec m (fun a _ ih => a :: ih) l
def revApp {α : Type} (l : List α) : List α → List α := List.rec (fun m => m) (fun a _ ih m => ih (a :: m)) l
def zs (n : Nat) (l : List FW) : List FW := Nat.rec l (fun _ ih => .z :: ih) n
def take {α : Type} (n : Nat) : List α → List α :=
  Nat.rec (fun _ => []) (fun _ ih l => List.rec [] (fun a t _ => a :: ih t) l) n
def drop {α : Type} (n : Nat) : List α → List α :=
  Nat.rec (fun l => l) (fun _ ih l => List.rec [] (fun _ t _ => ih t) l) n

/-- the next word of a sum -/
def stepK (a b : FW) (wp : SW) (qp : FW) (k : SW → FW → FW → Bool) : Bool :=
  sumK a b fun w => carryK w wp fun qf qi => refK w qf qi qp fun f i => k w (.s qf qi) (.s f i)

/-- the words of a sum from the first bootstrapped one: words of the operands, previous sum, previous carry, words so far -/
def hi (n : Nat) : List FW → List FW → SW → FW → List FW → (List FW → Bool) → Bool :=
  Nat.rec (fun _ _ _ qp acc k => k (revApp acc [qp]))
    (fun _ ih x y wp qp acc k =>
      List.rec
        (List.rec false (fun b y _ => stepK .z b wp qp fun w q z => ih [] y w q (z :: acc) k) y)
        (fun a x _ => List.rec (stepK a .z wp qp fun w q z => ih x [] w q (z :: acc) k)
          (fun b y _ => stepK a b wp qp fun w q z => ih x y w q (z :: acc) k) y) x) n

/-- the words of a sum below the first bootstrapped one -/
def lo (r : Nat) : List FW → List FW → List FW → (List FW → List FW → List FW → Bool) → Bool :=
  Nat.rec (fun x y acc k => k x y acc)
    (fun _ ih x y acc k =>
      List.rec (List.rec false (fun b y _ => ih [] y (b :: acc) k) y)
        (fun a x _ => List.rec (ih x [] (a :: acc) k)
          (fun b y _ => fwRec a (ih x y (b :: acc) k) fun _ _ => fwRec b (ih x y (a :: acc) k) fun _ _ => false) y) x) r

def maxK (a b : Nat) : Nat := sel (Nat.ble a b) b a

/-- addition -/
def fadd (x y : List FW) (k : List FW → Bool) : Bool :=
  force (rz x) fun rx => force (len x) fun lx => sel (Nat.beq rx lx) (k y)
    (force (rz y) fun ry => force (len y) fun ly => sel (Nat.beq ry ly) (k x)
      (force (Nat.sub lx (rz (revApp x []))) fun sx => force (Nat.sub ly (rz (revApp y []))) fun sy =>
        force (maxK rx ry) fun r => force (Nat.sub (maxK sx sy) r) fun n =>
        lo r x y [] fun x y acc => hi n x y .z .z acc k))

/-- product of words; with `c` the zero multiple of a word has the hash 0, without it that of the word -/
def mulK (c : Bool) (a b : FW) (k : FW → Bool) : Bool :=
  fwRec a (fwRec b (k .z) fun f _ => k (.s (sel c 0 f) 0)) fun f _ =>
    fwRec b (k (.s (sel c 0 f) 0)) fun g _ => mkK (Nat.add (Nat.mul 3 f) g) fun h i => k (.s h i)

/-- a row of the table of products -/
def row (c : Bool) (b : FW) (x : List FW) : List FW → (List FW → Bool) → Bool :=
  List.rec (fun acc k => k (revApp acc [])) (fun a _ ih acc k => mulK c a b fun w => ih (w :: acc) k) x

/-- adding the remaining rows -/
def rows (c : Bool) (x : List FW) (l : Nat) (y : List FW) : Nat → List FW → (List FW → Bool) → Bool :=
  List.rec (fun _ cur k => k cur)
    (fun b _ ih j cur k => row c b x [] fun r => fadd cur (zs j (app r (zs (Nat.sub l j) []))) fun s => ih (Nat.succ j) s k) y

def neg1 (w : FW) : FW := fwRec w .z fun f i => .s (Nat.mul 18446744073709551615 f) i
def negs (l : List FW) : List FW := List.rec [] (fun a _ ih => neg1 a :: ih) l

/-- schoolbook multiplication -/
def school (c : Bool) (l : Nat) (x y : List FW) (k : List FW → Bool) : Bool :=
  List.rec false (fun b y' _ => row c b x [] fun r => rows c x l y' 1 (app r (zs l [])) k) y

/-- multiplication of single words -/
def single (c : Bool) (x y : List FW) (k : List FW → Bool) : Bool :=
  List.rec false (fun b _ _ => row c b x [] fun r => k (app r (zs 1 []))) y

/-- Karatsuba multiplication, by halves -/
def kara (ih : List FW → List FW → (List FW → Bool) → Bool) (h : Nat) (xl xh yl yh : List FW) (k : List FW → Bool) : Bool :=
  ih xh yh fun a =>
  ih xl yl fun b =>
  fadd a b fun p =>
  fadd xl xh fun xs =>
  fadd yl yh fun ys =>
  ih xs ys fun cp =>
  fadd (zs h cp) (zs h (negs p)) fun cn =>
  sel (Nat.beq (len b) (Nat.mul 2 h)) (fadd (app b a) cn k) (fadd b cn fun bc => fadd (zs (Nat.mul 2 h) a) bc k)

/-- multiplication of operands of the same length -/
def body (c : Bool) (ih : List FW → List FW → (List FW → Bool) → Bool) (l : Nat) (x y : List FW) (k : List FW → Bool) : Bool :=
  sel (Nat.beq l 0) (k []) (sel (Nat.beq l 1) (single c x y k)
    (sel (sel (Nat.ble l 15) true (Nat.beq l 17)) (school c l x y k)
      (force (Nat.div (Nat.succ l) 2) fun h => kara ih h (take h x) (drop h x) (take h y) (drop h y) k)))

/-- multiplication -/
def fmul (c : Bool) (fuel : Nat) : List FW → List FW → (List FW → Bool) → Bool :=
  Nat.rec (fun _ _ _ => false) (fun _ ih x y k =>
    force (len x) fun lx => force (len y) fun ly => force (maxK lx ly) fun l =>
      body c ih l (app x (zs (Nat.sub l lx) [])) (app y (zs (Nat.sub l ly) [])) k) fuel

/-- hash of the input with index `j` -/
def inNum (j : Nat) : Nat := hb (Nat.mul (Nat.add j 5) 987654321987)

/-- `n` inputs from index `j` -/
def inp (n : Nat) : Nat → List FW :=
  Nat.rec (fun _ => []) (fun _ ih j => force (inNum j) fun f => .s f (Nat.succ f) :: ih (Nat.succ j)) n

/-- the product of `n` by `m` different samples passes all checks -/
def passes (c : Bool) (n m : Nat) : Bool := fmul c 6 (inp n 0) (inp m n) fun _ => true

/-- the pairs of lengths of which some half products are the same ciphertext and are added -/
def exc (n m : Nat) : Bool :=
  (Nat.beq n 32 && Nat.ble m 16) || (Nat.beq m 32 && Nat.ble n 16) ||
    (Nat.beq m 0 && Nat.ble 16 n && !Nat.beq n 17) || (Nat.beq n 0 && Nat.ble 16 m && !Nat.beq m 17)

/-- the check of a pair of lengths -/
def good (n m : Nat) : Bool := passes (!exc n m) n m

/-- the checks of `l` words by `a`, …, `a + n - 1` words, in both orders -/
def seg (l a n : Nat) : Bool :=
  Nat.rec true (fun m ih => good l (Nat.add a m) && (good (Nat.add a m) l && ih)) n

end

end Fast
end Parm
