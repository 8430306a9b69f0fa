import Verif.Spec.Relabel

/-!
# Numbers with two zeros

`FX m` has one zero.  `SZ m` adds the negative zero of IEEE 754, with its rules: the signs of products and quotients,
sums of two negative zeros, negative results that round to zero, division by a negative zero, and a total order that
puts the negative zero below the positive one.
-/

namespace Verif

open scoped Verif

/-- Numbers of format `m` with a negative zero; `of (fin 0)` is the positive zero. -/
inductive SZ {K : Type} (m : Fmt K) where
  | nzero
  | of (x : FX m)
  deriving DecidableEq, Repr

namespace SZ

variable {K : Type} [Field K] [LinearOrder K] {m : Fmt K}

/-- The number without the sign of zero. -/
def value : SZ m → FX m
  | nzero => .fin 0
  | of x => x

/-- The sign bit (a NaN counts as positive). -/
def neg? : SZ m → Bool
  | nzero => true
  | of x => x.isNeg

/-- The number with the given value, and with the given sign if it is zero. -/
def signed (s : Bool) (r : FX m) : SZ m :=
  match s, r with
  | true, .fin q => if q = 0 then nzero else of (.fin q)
  | _, r => of r

/-- Is the value zero? -/
def isZero (x : SZ m) : Bool :=
  match x.value with
  | .fin q => decide (q = 0)
  | _ => false

/-- Addition: the sum of two negative zeros is the negative zero, other sums that are exactly zero are the positive
zero, and a negative sum that is rounded to zero keeps its sign. -/
def add : SZ m → SZ m → SZ m
  | nzero, nzero => nzero
  | x, y =>
    match x.value, y.value with
    | .fin a, .fin b => signed (decide (a + b < 0)) (FX.rd (a + b))
    | u, v => of (u + v)

/-- Negation flips the sign bit. -/
def negate (x : SZ m) : SZ m := signed (!x.neg?) (-x.value)

/-- Multiplication. -/
def mul (x y : SZ m) : SZ m := signed (x.neg? != y.neg?) (x.value * y.value)

/-- Division: a zero divisor gives an infinity with the sign of the quotient, NaN for `0 / 0`. -/
def div (x y : SZ m) : SZ m :=
  if y.isZero then
    if x.isZero then of .nan
    else match x.value with
      | .nan => of .nan
      | _ => if x.neg? != y.neg? then of .ninf else of .pinf
  else signed (x.neg? != y.neg?) (x.value / y.value)

/-- The order of `total_cmp`: the negative zero comes before the positive zero. -/
def tle (x y : SZ m) : Bool := if x.isZero && y.isZero then x.neg? || !y.neg? else Fl.tle x.value y.value

instance : Fl (SZ m) where
  zero := of 0
  one := of 1
  add := add
  sub a b := add a (negate b)
  mul := mul
  div := div
  neg := negate
  nan := of .nan
  inf := of .pinf
  ninf := of .ninf
  maxv := of (.fin m.maxF)
  lt x y := x.value <ᶠ y.value
  le x y := x.value ≤ᶠ y.value
  feq x y := x.value =ᶠ y.value
  isNaN x := isNaN x.value
  ofNat n := of (Fl.ofNat n)
  toNat x := Fl.toNat x.value
  abs x := of (Fl.abs x.value)
  copysign a b := if b.neg? then negate (of (Fl.abs a.value)) else of (Fl.abs a.value)
  tle := tle
  exp x := of (Fl.exp x.value)
  ln x := of (Fl.ln x.value)
  ln1p x := signed x.neg? (Fl.ln1p x.value)
  sqrt x := signed x.neg? (Fl.sqrt x.value)

/-- Casts keep the sign; a negative number that is rounded to zero becomes the negative zero. -/
instance {m32 m64 : Fmt K} : FlCast (SZ m32) (SZ m64) where
  up x := signed x.neg? (up x.value)
  down x := signed x.neg? (down x.value)

/-- The positive zero in place of the negative one. -/
def plus (x : SZ m) : SZ m := of x.value

end SZ

section
variable {K : Type} [Field K] [LinearOrder K] {m : Fmt K}

/-- Two matrices that differ in the signs of zeros only. -/
structure Matrix.SameUpToZero (X X' : Matrix (SZ m)) : Prop where
  rows : X'.rows = X.rows
  cols : X'.cols = X.cols
  data : X'.data.map SZ.value = X.data.map SZ.value

/-- Evaluation sets whose data differ in the signs of zeros only. -/
structure EvalSet.SameUpToZero (e e' : EvalSet (SZ m)) : Prop where
  data : e.data.SameUpToZero e'.data
  y : e'.y = e.y
  w : e'.w = e.w

/-- Optional lists of evaluation sets. -/
def EvalsSameUpToZero : Option (List (EvalSet (SZ m))) → Option (List (EvalSet (SZ m))) → Prop
  | none, none => True
  | some l, some l' => List.Forall₂ EvalSet.SameUpToZero l l'
  | _, _ => False

/-- Two nodes that differ in the sign of a zero split value only. -/
def Node.SameUpToZero {m32 m64 : Fmt K} (n n' : Node (SZ m32) (SZ m64)) : Prop :=
  n' = n ∨ (n' = { n with splitValue := n'.splitValue } ∧ n.isLeaf = false ∧
    n.splitValue.value = .fin 0 ∧ n'.splitValue.value = .fin 0)

/-- Two boosters that differ in the signs of zero split values only. -/
def Booster.SameUpToZero {m32 m64 : Fmt K} (b b' : Booster (SZ m32) (SZ m64)) : Prop :=
  b' = { b with trees := b'.trees } ∧
    List.Forall₂ (fun t t' => List.Forall₂ Node.SameUpToZero t.nodes t'.nodes) b.trees b'.trees

end

end Verif
