import Verif.Model.Caller

/-!
# C++ objects of any sizes: copying, moving, swapping

Calls on named objects of one class, each with its own number of variables.  The class declares no copy
or move operations (`hyperjet.h` lines 44-58, 315-366), so the compiler makes them member by member:
`m_size` is copied in any case, a `std::vector` gives its storage away and is empty afterwards (the state
that all common standard libraries leave behind), a `std::array` is copied.
-/

namespace HJ

open DD

variable {α V : Type}

/-- What is left of an object after it was moved from (members `m_size`, `m_data`, `hyperjet.h` lines
57-58; implicit move operations). -/
def DD.hollow (c : Cfg) (x : DD α) : DD α := if c.isDynamic then { x with mData := [] } else x

/-- New objects (`hyperjet.h` lines given with each). -/
inductive Maker (α V : Type) where
  /-- `T::zero(size)` (lines 598-611) -/
  | zero (size : Int)
  /-- `T::constant(f, size)` (lines 620-633) -/
  | const (f : α) (size : Int)
  /-- `T::variable(i, f, size)` (lines 644-658) -/
  | var (i : Int) (f : α) (size : Int)
  /-- `T()` (lines 315-328) -/
  | blank
  /-- `T(f)` (lines 330-345) -/
  | ofScalar (f : α)
  /-- `-a` (lines 972-982) -/
  | neg (a : V)
  /-- `a.abs()` (lines 1659-1662) -/
  | abs (a : V)
  /-- `a.sqrt()`, ... (lines 1253-1655) -/
  | fn (φ : Fn α) (a : V)
  /-- `a + b`, ... (lines 986-1655) -/
  | bin (o : Bin) (a b : V)
  /-- `a + s`, `s + a`, ... (lines 1006-1222) -/
  | sbin (o : SBin) (a : V) (s : α)
  /-- `a.hypot(b, e)` (lines 1488-1523) -/
  | hypot3 (a b e : V)
  /-- `a.pad_right(m)` (lines 477-525) -/
  | padRight (a : V) (m : Int)
  /-- `a.pad_left(m)` (lines 430-475) -/
  | padLeft (a : V) (m : Int)

/-- Make a new object (`hyperjet.h` lines 315-345, 430-525, 598-658, 970-1662). -/
def Maker.run [CMath α] (c : Cfg) (ρ : Store α V) : Maker α V → Res (DD α)
  | .zero size => DD.zero c size
  | .const f size => DD.constant c f size
  | .var i f size => DD.var c i f size
  | .blank => .ok (DD.default c)
  | .ofScalar f => DD.ofScalar c f
  | .neg a => (ρ a).neg c
  | .abs a => (ρ a).abs c
  | .fn φ a => DD.un c (ρ a) φ.coef
  | .bin o a b => o.run c (ρ a) (ρ b)
  | .sbin o a s => o.run c (ρ a) s
  | .hypot3 a b e => DD.hypot3 c (ρ a) (ρ b) (ρ e)
  | .padRight a m => (ρ a).padRight c m
  | .padLeft a m => (ρ a).padLeft c m

/-- Changes of an object in place (`hyperjet.h` lines given with each). -/
inductive Change (α V : Type) where
  /-- `v += b`, ... (lines 1020, 1080, 1138, 1224); `b` may be `v` itself -/
  | asg (o : AOp) (b : V)
  /-- `v += s`, ... (lines 1032, 1092, 1170, 1244) -/
  | asgS (o : AOp) (s : α)
  /-- `v.set_f(s)` (lines 717-720) -/
  | setF (s : α)
  /-- `v.set_g(i, s)` (lines 736-739) -/
  | setG (i : Int) (s : α)
  /-- `v.set_h(i, j, s)` (lines 790-793) -/
  | setH (i j : Int) (s : α)
  /-- `v.set_zero()` (lines 950-953) -/
  | setZero
  /-- `v.resize(m)` (lines 422-428) -/
  | resize (m : Int)

/-- Outcome of a setter: the object as it was if it fails (`hyperjet.h` lines 717-793). -/
def DD.setter (x : DD α) : Res (DD α) → Res Unit × DD α
  | .ok y => (.ok (), y)
  | .throw e => (.throw e, x)
  | .abort => (.abort, x)
  | .ub u => (.ub u, x)

/-- Change the object `v` (`hyperjet.h` lines 422-428, 707-793, 950-953, 1020-1249). -/
def Change.run [CMath α] [DecidableEq V] (c : Cfg) (ρ : Store α V) (v : V) :
    Change α V → Res Unit × DD α
  | .asg o b => o.run c (ρ v) (if b = v then .self else .obj (ρ b))
  | .asgS o s => o.runS (ρ v) (.val s)
  | .setF s => (ρ v).setter ((ρ v).setF s)
  | .setG i s => (ρ v).setter ((ρ v).setG c i s)
  | .setH i j s => (ρ v).setter ((ρ v).setH c i j s)
  | .setZero => (.ok (), (ρ v).setZero)
  | .resize m => (ρ v).resize c m

/-- What can be read (`hyperjet.h` lines given with each). -/
inductive Query (α V : Type) where
  /-- `a.f()` (lines 712-715) -/
  | f (a : V)
  /-- `a.g(i)` (lines 729-734) -/
  | g (a : V) (i : Int)
  /-- `a.h(i, j)` (lines 775-788) -/
  | h (a : V) (i j : Int)
  /-- `a.size()` (lines 398-408) -/
  | size (a : V)
  /-- `a < b`, ... (lines 1666-1694) -/
  | cmp (o : CmpOp) (a b : V)
  /-- `a < s`, ... (lines 1696-1724) -/
  | cmpS (o : CmpOp) (a : V) (s : α)
  /-- `s < a`, ... (lines 1726-1754) -/
  | sCmp (o : CmpOp) (s : α) (a : V)
  /-- `a.eval(d)` (lines 907-946) -/
  | eval (a : V) (d : List α)

/-- What the client code gets back. (C++ language; `threw` is an exception that it may catch.) -/
inductive Reply (α : Type) where
  | done
  | truth (b : Bool)
  | number (x : α)
  | int (z : Int)
  | threw (e : Err)

/-- Answer a query (`hyperjet.h` lines 398-408, 707-793, 907-946, 1664-1754). -/
def Query.run [CMath α] (c : Cfg) (ρ : Store α V) : Query α V → Res (Reply α)
  | .f a => do let x ← (ρ a).f; .ok (.number x)
  | .g a i => do let x ← (ρ a).g c i; .ok (.number x)
  | .h a i j => do let x ← (ρ a).h c i j; .ok (.number x)
  | .size a => .ok (.int ((ρ a).size c))
  | .cmp o a b => do let r ← DD.cmp o (ρ a) (ρ b); .ok (.truth r)
  | .cmpS o a s => do let r ← DD.cmpS o (ρ a) s; .ok (.truth r)
  | .sCmp o s a => do let r ← DD.sCmp o s (ρ a); .ok (.truth r)
  | .eval a d => do let x ← (ρ a).eval c d; .ok (.number x)

/-- Calls on named objects (`hyperjet.h` lines 44-58 for copy, move, swap; else as given above). -/
inductive ObjCall (α V : Type) where
  /-- `v = m;` where `m` makes a new object -/
  | make (v : V) (m : Maker α V)
  /-- a change of `v` in place -/
  | change (v : V) (o : Change α V)
  /-- a query -/
  | ask (k : Query α V)
  /-- `v = a;` -/
  | copy (v a : V)
  /-- `v = std::move(a);`, also `v = std::move(v);` -/
  | move (v a : V)
  /-- `std::swap(a, b);` -/
  | swap (a b : V)

/-- Catch exceptions. (C++ language: `try { ... } catch`.) -/
def Reply.catch : Res (Reply α) → Res (Reply α)
  | .throw e => .ok (.threw e)
  | r => r

/-- `v = std::move(a);` (implicit, members of `hyperjet.h` lines 57-58). -/
def Store.moveTo [DecidableEq V] (c : Cfg) (ρ : Store α V) (v a : V) : Store α V :=
  (ρ.set v (ρ a)).set a ((ρ a).hollow c)

/-- `std::swap(a, b)`: `T t = std::move(a); a = std::move(b); b = std::move(t);`
(C++ standard library; members of `hyperjet.h` lines 57-58). -/
def Store.swap [DecidableEq V] (c : Cfg) (ρ : Store α V) (a b : V) : Store α V :=
  ((ρ.set a ((ρ a).hollow c)).moveTo c a b).set b (ρ a)

/-- The library of objects of any sizes (`hyperjet.h` lines 44-1754). -/
def objLibrary (α V : Type) [CMath α] [DecidableEq V] (c : Cfg) :
    Library (ObjCall α V) (Reply α) (Store α V)
  | .make v m, ρ =>
    let r := ρ.put v (m.run c ρ)
    (Reply.catch (do r.1; .ok .done), r.2)
  | .change v o, ρ =>
    let r := o.run c ρ v
    (Reply.catch (do r.1; .ok .done), ρ.set v r.2)
  | .ask k, ρ => (Reply.catch (k.run c ρ), ρ)
  | .copy v a, ρ => (.ok .done, ρ.set v (ρ a))
  | .move v a, ρ => (.ok .done, ρ.moveTo c v a)
  | .swap a b, ρ => (.ok .done, ρ.swap c a b)

end HJ
