import Mathlib.Algebra.Order.Field.Basic
import Mathlib.Algebra.Order.Ring.Abs
import Mathlib.Data.List.Forall2

/-!
# Numbers, casts and faults

The Rust code computes in `f32` and `f64`.  The model is generic in two number types, one per
format; `Fl` lists the operations the code uses and states no law, so a theorem that only assumes
`[Fl F]` holds for IEEE-754 arithmetic as well as for any other arithmetic.

`FX m` is the concrete instance: finite numbers of an ordered field `K`, the two infinities and
NaN, with the IEEE rules for the special values and every finite result passed through the rounding
function `m.rnd` of the format.  `Fmt.Exact m` says that the rounding is the identity.
Simplification: there is one zero (no negative zero).
-/

namespace Verif

/-- Result of a modelled Rust function: a value, a panic, or exhausted fuel (the loop did not
finish within the given number of steps). -/
inductive Res (α : Type) where
  | ok (a : α)
  | panic
  | diverge
  deriving DecidableEq, Repr

namespace Res

/-- Sequencing: the first fault wins. -/
def bind {α β : Type} : Res α → (α → Res β) → Res β
  | ok a, f => f a
  | panic, _ => panic
  | diverge, _ => diverge

instance : Monad Res where
  pure := ok
  bind := bind

instance {α : Type} [Inhabited α] : Inhabited (Res α) := ⟨panic⟩

variable {α β γ : Type}

@[simp] theorem pure_def (a : α) : (pure a : Res α) = ok a := rfl
@[simp] theorem ok_bind (a : α) (f : α → Res β) : (ok a >>= f) = f a := rfl
@[simp] theorem panic_bind (f : α → Res β) : ((panic : Res α) >>= f) = panic := rfl
@[simp] theorem diverge_bind (f : α → Res β) : ((diverge : Res α) >>= f) = diverge := rfl

theorem bind_eq_ok {x : Res α} {f : α → Res β} {b : β} :
    (x >>= f) = ok b ↔ ∃ a, x = ok a ∧ f a = ok b := by
  cases x <;> simp

theorem bind_assoc' (x : Res α) (f : α → Res β) (g : β → Res γ) :
    (x >>= f) >>= g = x >>= fun a => f a >>= g := by
  cases x <;> simp

instance : LawfulMonad Res := LawfulMonad.mk'
  (id_map := by intro α x; cases x <;> rfl)
  (pure_bind := by intros; rfl)
  (bind_assoc := by intro α β γ x f g; cases x <;> rfl)

/-- Reading an element out of range panics. -/
def ofOption : Option α → Res α
  | some a => ok a
  | none => panic

@[simp] theorem ofOption_some (a : α) : ofOption (some a) = ok a := rfl
@[simp] theorem ofOption_none : ofOption (none : Option α) = panic := rfl

theorem ofOption_eq_ok {o : Option α} {a : α} : ofOption o = ok a ↔ o = some a := by
  cases o <;> simp

/-- `assert!(c)`: panics when the condition is false. -/
def assert (c : Bool) : Res Unit := if c then ok () else panic

@[simp] theorem assert_true : assert true = ok () := rfl
@[simp] theorem assert_false : assert false = panic := rfl

theorem assert_eq_ok {c : Bool} {u : Unit} : assert c = ok u ↔ c = true := by
  cases c <;> simp

/-- Map with faults, left to right. -/
def mapM' (f : α → Res β) : List α → Res (List β)
  | [] => ok []
  | a :: l => do
    let b ← f a
    let bs ← mapM' f l
    pure (b :: bs)

@[simp] theorem mapM'_nil (f : α → Res β) : mapM' f [] = ok [] := rfl
@[simp] theorem mapM'_cons (f : α → Res β) (a : α) (l : List α) :
    mapM' f (a :: l) = f a >>= fun b => mapM' f l >>= fun bs => ok (b :: bs) := rfl

theorem mapM'_eq_ok {f : α → Res β} {l : List α} {bs : List β} :
    mapM' f l = ok bs ↔ List.Forall₂ (fun a b => f a = ok b) l bs := by
  induction l generalizing bs with
  | nil => cases bs <;> simp
  | cons a l ih =>
    cases bs with
    | nil => simp [bind_eq_ok]
    | cons b bs => simp [bind_eq_ok, ih]

theorem mapM'_congr {f g : α → Res β} {l : List α} (h : ∀ a ∈ l, f a = g a) :
    mapM' f l = mapM' g l := by
  induction l with
  | nil => rfl
  | cons a l ih =>
    simp only [mapM'_cons]
    rw [h a (by simp), ih (fun b hb => h b (by simp [hb]))]

theorem mapM'_ok {f : α → Res β} {g : α → β} {l : List α} (h : ∀ a ∈ l, f a = ok (g a)) :
    mapM' f l = ok (l.map g) := by
  induction l with
  | nil => rfl
  | cons a l ih =>
    simp [mapM'_cons, h a (by simp), ih (fun b hb => h b (by simp [hb]))]

/-- Left fold with faults. -/
def foldM' (f : β → α → Res β) : β → List α → Res β
  | b, [] => ok b
  | b, a :: l => f b a >>= fun b' => foldM' f b' l

@[simp] theorem foldM'_nil (f : β → α → Res β) (b : β) : foldM' f b [] = ok b := rfl
@[simp] theorem foldM'_cons (f : β → α → Res β) (b : β) (a : α) (l : List α) :
    foldM' f b (a :: l) = f b a >>= fun b' => foldM' f b' l := rfl

theorem foldM'_append (f : β → α → Res β) (b : β) (l l' : List α) :
    foldM' f b (l ++ l') = foldM' f b l >>= fun b' => foldM' f b' l' := by
  induction l generalizing b with
  | nil => rfl
  | cons a l ih =>
    simp only [List.cons_append, foldM'_cons, bind_assoc']
    congr; funext b'; exact ih b'

theorem foldM'_ok {f : β → α → Res β} {g : β → α → β} {l : List α} {b : β}
    (h : ∀ a ∈ l, ∀ b, f b a = ok (g b a)) : foldM' f b l = ok (l.foldl g b) := by
  induction l generalizing b with
  | nil => rfl
  | cons a l ih =>
    simp [foldM'_cons, h a (by simp), ih (fun x hx => h x (by simp [hx]))]

end Res

/-- The operations of one floating point format that the code uses.  No laws. -/
class Fl (F : Type) extends Zero F, One F, Add F, Sub F, Mul F, Div F, Neg F where
  /-- `NAN` -/
  nan : F
  /-- `INFINITY` -/
  inf : F
  /-- `NEG_INFINITY` -/
  ninf : F
  /-- `MAX`, the largest finite value -/
  maxv : F
  /-- `<` -/
  lt : F → F → Bool
  /-- `<=` -/
  le : F → F → Bool
  /-- `==` -/
  feq : F → F → Bool
  /-- `is_nan` -/
  isNaN : F → Bool
  /-- conversion of a natural number -/
  ofNat : Nat → F
  /-- `as usize` (truncating, saturating, NaN to 0) -/
  toNat : F → Nat
  /-- `abs` -/
  abs : F → F
  /-- `copysign` -/
  copysign : F → F → F
  /-- `total_cmp(..) != Greater` -/
  tle : F → F → Bool
  /-- `exp` -/
  exp : F → F
  /-- `ln` -/
  ln : F → F
  /-- `ln_1p` -/
  ln1p : F → F
  /-- `sqrt` -/
  sqrt : F → F

/-- `f64::from(x: f32)` and `x as f32` for `x: f64`. -/
class FlCast (F D : Type) where
  /-- `f64::from` / `as f64` -/
  up : F → D
  /-- `as f32` -/
  down : D → F

export Fl (nan inf ninf isNaN)
export FlCast (up down)

@[inherit_doc] scoped infix:50 " <ᶠ " => Fl.lt
@[inherit_doc] scoped infix:50 " ≤ᶠ " => Fl.le
@[inherit_doc] scoped infix:50 " =ᶠ " => Fl.feq

/-- A rounded finite result: a finite number or an overflow. -/
inductive RV (K : Type) where
  | ninf
  | fin (q : K)
  | pinf
  deriving DecidableEq, Repr

/-- Parameters of a floating point format over the field `K`: its rounding function, its largest
finite value, and its elementary functions on finite arguments. -/
structure Fmt (K : Type) where
  /-- rounding of an exact finite result -/
  rnd : K → RV K
  /-- largest finite value -/
  maxF : K
  /-- conversion to a natural number -/
  toNatF : K → Nat
  /-- `exp` on finite arguments -/
  expF : K → RV K
  /-- `ln` on positive arguments -/
  lnF : K → RV K
  /-- `sqrt` on non-negative arguments -/
  sqrtF : K → RV K

/-- The arithmetic is exact: results are not rounded. -/
class Fmt.Exact {K : Type} (m : Fmt K) : Prop where
  rnd_eq : ∀ q, m.rnd q = RV.fin q

/-- Numbers of format `m`. -/
inductive FX {K : Type} (m : Fmt K) where
  | nan
  | ninf
  | fin (q : K)
  | pinf
  deriving DecidableEq, Repr

namespace FX

variable {K : Type} {m : Fmt K}

/-- Embedding of a rounded result. -/
def ofRV : RV K → FX m
  | .ninf => ninf
  | .fin q => fin q
  | .pinf => pinf

/-- Round a finite result. -/
def rd (q : K) : FX m := ofRV (m.rnd q)

variable [Field K] [LinearOrder K]

/-- IEEE addition. -/
def add : FX m → FX m → FX m
  | nan, _ => nan
  | _, nan => nan
  | fin a, fin b => rd (a + b)
  | pinf, ninf => nan
  | ninf, pinf => nan
  | pinf, _ => pinf
  | _, pinf => pinf
  | ninf, _ => ninf
  | _, ninf => ninf

/-- IEEE negation. -/
def neg : FX m → FX m
  | nan => nan
  | ninf => pinf
  | fin a => fin (-a)
  | pinf => ninf

/-- Infinity with the sign of a non-zero number, NaN for zero. -/
def sinf (q : K) : FX m := if 0 < q then pinf else if q < 0 then ninf else nan

/-- IEEE multiplication. -/
def mul : FX m → FX m → FX m
  | nan, _ => nan
  | _, nan => nan
  | fin a, fin b => rd (a * b)
  | pinf, pinf => pinf
  | ninf, ninf => pinf
  | pinf, ninf => ninf
  | ninf, pinf => ninf
  | pinf, fin a => sinf a
  | fin a, pinf => sinf a
  | ninf, fin a => sinf (-a)
  | fin a, ninf => sinf (-a)

/-- IEEE division (a zero divisor counts as positive zero). -/
def div : FX m → FX m → FX m
  | nan, _ => nan
  | _, nan => nan
  | fin a, fin b => if b = 0 then sinf a else rd (a / b)
  | fin _, pinf => fin 0
  | fin _, ninf => fin 0
  | pinf, fin b => if 0 ≤ b then pinf else ninf
  | ninf, fin b => if 0 ≤ b then ninf else pinf
  | _, _ => nan

/-- `<`, false on NaN. -/
def lt : FX m → FX m → Bool
  | nan, _ => false
  | _, nan => false
  | fin a, fin b => decide (a < b)
  | ninf, ninf => false
  | ninf, _ => true
  | _, ninf => false
  | pinf, _ => false
  | _, pinf => true

/-- `<=`, false on NaN. -/
def le : FX m → FX m → Bool
  | nan, _ => false
  | _, nan => false
  | fin a, fin b => decide (a ≤ b)
  | ninf, _ => true
  | _, pinf => true
  | _, ninf => false
  | pinf, _ => false

/-- `==`, false on NaN. -/
def feq : FX m → FX m → Bool
  | fin a, fin b => decide (a = b)
  | ninf, ninf => true
  | pinf, pinf => true
  | _, _ => false

/-- `pinf` last but NaN: the order of `total_cmp` with a positive NaN. -/
def tle : FX m → FX m → Bool
  | _, nan => true
  | nan, _ => false
  | a, b => le a b

/-- `abs`. -/
def abs : FX m → FX m
  | nan => nan
  | ninf => pinf
  | fin a => fin |a|
  | pinf => pinf

/-- Sign test used by `copysign` (zero and NaN count as positive). -/
def isNeg : FX m → Bool
  | ninf => true
  | fin a => decide (a < 0)
  | _ => false

/-- The instance of the operations for format `m`. -/
instance : Fl (FX m) where
  zero := fin 0
  one := fin 1
  add := add
  sub a b := add a (neg b)
  mul := mul
  div := div
  neg := neg
  nan := nan
  inf := pinf
  ninf := ninf
  maxv := fin m.maxF
  lt := lt
  le := le
  feq := feq
  isNaN x := match x with
    | nan => true
    | _ => false
  ofNat n := rd (n : K)
  toNat x := match x with
    | fin q => m.toNatF q
    | pinf => 2 ^ 64 - 1
    | _ => 0
  abs := abs
  copysign a b := if isNeg b then neg (abs a) else abs a
  tle := tle
  exp x := match x with
    | nan => nan
    | ninf => fin 0
    | fin q => ofRV (m.expF q)
    | pinf => pinf
  ln x := match x with
    | nan => nan
    | ninf => nan
    | fin q => if q < 0 then nan else if q = 0 then ninf else ofRV (m.lnF q)
    | pinf => pinf
  ln1p x := match x with
    | nan => nan
    | ninf => nan
    | fin q => if q + 1 < 0 then nan else if q + 1 = 0 then ninf else ofRV (m.lnF (q + 1))
    | pinf => pinf
  sqrt x := match x with
    | nan => nan
    | ninf => nan
    | fin q => if q < 0 then nan else ofRV (m.sqrtF q)
    | pinf => pinf

/-- Casts: every `f32` value is an `f64` value; the other way rounds. -/
instance {m32 m64 : Fmt K} : FlCast (FX m32) (FX m64) where
  up x := match x with
    | nan => nan
    | ninf => ninf
    | fin q => fin q
    | pinf => pinf
  down x := match x with
    | nan => nan
    | ninf => ninf
    | fin q => rd q
    | pinf => pinf

/-! ### Evaluation lemmas -/

theorem zero_def : (0 : FX m) = fin 0 := rfl
theorem one_def : (1 : FX m) = fin 1 := rfl

@[simp] theorem lt_fin (a b : K) : Fl.lt (fin a : FX m) (fin b) = decide (a < b) := rfl
@[simp] theorem le_fin (a b : K) : Fl.le (fin a : FX m) (fin b) = decide (a ≤ b) := rfl
@[simp] theorem feq_fin (a b : K) : Fl.feq (fin a : FX m) (fin b) = decide (a = b) := rfl
@[simp] theorem isNaN_fin (a : K) : Fl.isNaN (fin a : FX m) = false := rfl
@[simp] theorem isNaN_nan : Fl.isNaN (nan : FX m) = true := rfl
@[simp] theorem isNaN_pinf : Fl.isNaN (pinf : FX m) = false := rfl
@[simp] theorem isNaN_ninf : Fl.isNaN (ninf : FX m) = false := rfl
@[simp] theorem fl_nan : (Fl.nan : FX m) = nan := rfl
@[simp] theorem fl_inf : (Fl.inf : FX m) = pinf := rfl
@[simp] theorem fl_ninf : (Fl.ninf : FX m) = ninf := rfl
@[simp] theorem neg_fin (a : K) : -(fin a : FX m) = fin (-a) := rfl
@[simp] theorem abs_fin (a : K) : Fl.abs (fin a : FX m) = fin |a| := rfl

theorem isNaN_iff {x : FX m} : Fl.isNaN x = true ↔ x = nan := by
  cases x <;> simp

section exact
variable [hm : m.Exact]

omit [Field K] [LinearOrder K] in
theorem rd_eq (q : K) : (rd q : FX m) = fin q := by
  simp [rd, hm.rnd_eq, ofRV]

@[simp] theorem fin_add (a b : K) : (fin a + fin b : FX m) = fin (a + b) := rd_eq _
@[simp] theorem fin_sub (a b : K) : (fin a - fin b : FX m) = fin (a - b) := by
  show add (fin a) (neg (fin b)) = _
  simp [add, neg, rd_eq, sub_eq_add_neg]
@[simp] theorem fin_mul (a b : K) : (fin a * fin b : FX m) = fin (a * b) := rd_eq _
theorem fin_div (a b : K) (h : b ≠ 0) : (fin a / fin b : FX m) = fin (a / b) := by
  show div (fin a) (fin b) = _
  simp [div, h, rd_eq]
@[simp] theorem ofNat_eq (n : Nat) : (Fl.ofNat n : FX m) = fin (n : K) := rd_eq _

end exact

omit [Field K] [LinearOrder K] in
@[simp] theorem up_fin {m32 m64 : Fmt K} (a : K) : (up (fin a : FX m32) : FX m64) = fin a := rfl
omit [Field K] [LinearOrder K] in
@[simp] theorem down_fin {m32 m64 : Fmt K} [m32.Exact] (a : K) :
    (down (fin a : FX m64) : FX m32) = fin a := rd_eq _

end FX

end Verif
