import Verif.Spec.PyApi
import Verif.Spec.PyMath
import Verif.Spec.Program
import Mathlib.Algebra.BigOperators.Group.Finset.Basic

/-!
# Specification: what every Python call computes

`Verdict` says which calls return; this file says what they return and what they leave in the
objects, in terms of the components that objects show and of the functions they are jets of.
-/

namespace HJ

open DD

variable {α : Type}

/-- `v` is number `k` in the storage of a jet `J` of `n` variables: the value, the gradient, the
upper triangle of the Hessian by rows. -/
structure CellIs (order n k : Nat) (J : Jet α) (v : α) : Prop where
  f : k = 0 → v = J.f
  g : ∀ p < n, k = 1 + p → v = J.g p
  h : order = 2 → ∀ p q : Nat, p ≤ q → q < n → (k : Int) = hCell n p q → v = J.h p q

/-- Replace number `k`. -/
def Jet.put (n k : Nat) (v : α) (J : Jet α) : Jet α where
  f := if k = 0 then v else J.f
  g p := if k = 1 + p then v else J.g p
  h p q := if (k : Int) = hCell n p q then v else J.h p q

/-- Value `f`, all derivatives zero. -/
noncomputable def plainJet (f : XReal) : Jet XReal := ⟨f, fun _ => .num 0, fun _ _ => .num 0⟩

/-- The object holds value and derivatives of `F` at `x`. -/
def JetAt (c : Cfg) (n : Nat) (d : DD XReal) (F : (Fin n → ℝ) → ℝ) (x : Fin n → ℝ) : Prop :=
  ∃ K : Jet ℝ, Shows c n d K.lift ∧ IsJet c.order n F x K

/-- The call returned a new object, which shows `J`. -/
def Made (c : Cfg) (st : ApiSt XReal) (r : Res (ApiOut XReal) × ApiSt XReal) (n : Nat)
    (J : Jet XReal) : Prop :=
  r.1 = .ok (.objs [st.next]) ∧ Shows c n (r.2.heap st.next) J

/-- The call returned a new object, which holds value and derivatives of `F` at `x`. -/
def MadeAt (c : Cfg) (st : ApiSt XReal) (r : Res (ApiOut XReal) × ApiSt XReal) (n : Nat)
    (F : (Fin n → ℝ) → ℝ) (x : Fin n → ℝ) : Prop :=
  r.1 = .ok (.objs [st.next]) ∧ JetAt c n (r.2.heap st.next) F x

/-- The in-place operator returned object `a`, which now holds value and derivatives of `F` at `x`. -/
def BecameAt (c : Cfg) (r : Res (ApiOut XReal) × ApiSt XReal) (a n : Nat)
    (F : (Fin n → ℝ) → ℝ) (x : Fin n → ℝ) : Prop :=
  r.1 = .ok (.objs [a]) ∧ JetAt c n (r.2.heap a) F x

/-- The setter left `J` in object `a`. -/
def Became (c : Cfg) (r : Res (ApiOut XReal) × ApiSt XReal) (a n : Nat) (J : Jet XReal) : Prop :=
  r.1 = .ok .none ∧ Shows c n (r.2.heap a) J

/-- The comparison of real numbers. -/
def DD.CmpOp.rel : DD.CmpOp → ℝ → ℝ → Prop
  | .eq => fun x y => x = y
  | .ne => fun x y => x ≠ y
  | .lt => fun x y => x < y
  | .gt => fun x y => x > y
  | .le => fun x y => x ≤ y
  | .ge => fun x y => x ≥ y

/-- The Taylor polynomial with coefficients `J` at displacement `d`. -/
noncomputable def taylorPoly (order n : Nat) (J : Jet ℝ) (d : Nat → ℝ) : ℝ :=
  J.f + ∑ i ∈ Finset.range n, J.g i * d i +
    if order = 1 then 0
    else 1 / 2 * ∑ i ∈ Finset.range n, ∑ j ∈ Finset.range n, J.h i j * d i * d j

/-- The number of variables of a jet made without saying how many. -/
def freeSize (c : Cfg) : Nat := if c.tsize = -1 then 0 else c.tsize.toNat

/-- A jet made from the stored numbers `xs`. -/
def FromData (c : Cfg) (st : ApiSt XReal) (r : Res (ApiOut XReal) × ApiSt XReal)
    (xs : List XReal) : Prop :=
  ∃ n J, storedLen c.order n = xs.length ∧ Made c st r n J ∧
    ∀ k v, xs[k]? = some v → CellIs c.order n k J v

/-- What call `k` with outcome `r` from state `st` has computed; `sz` are the sizes of the objects,
`fmt` prints a number. -/
def ApiCall.Means (c : Cfg) (fmt : XReal → String) (sz : Nat → Nat) (st : ApiSt XReal)
    (r : Res (ApiOut XReal) × ApiSt XReal) : ApiCall XReal → Prop
  | .const2 f size => Made c st r size.toNat (plainJet f)
  | .const1 f => Made c st r (freeSize c) (plainJet f)
  | .zeroN size => Made c st r size.toNat (plainJet (.num 0))
  | .zero0 => Made c st r (freeSize c) (plainJet (.num 0))
  | .emptyN size => Made c st r size.toNat (plainJet (.num 0))
  | .empty0 => Made c st r 0 (plainJet (.num 0))
  | .vari i f size => Made c st r size.toNat
      ((plainJet f).put size.toNat (1 + i).toNat (.num 1))
  | .vari2 i f => Made c st r (freeSize c) ((plainJet f).put (freeSize c) (1 + i).toNat (.num 1))
  | .create xs => FromData c st r xs
  | .setState [.seq xs] => FromData c st r xs
  | .setState _ => False
  | .variables vs => r.1 = .ok (.objs (List.range' st.next vs.length)) ∧
      ∀ i v, vs[i]? = some v → Shows c vs.length (r.2.heap (st.next + i))
        ⟨v, fun p => if p = i then .num 1 else .num 0, fun _ _ => .num 0⟩
  | .fromGradient f g => ∃ J, Made c st r g.length J ∧ J.f = f ∧
      ∀ p v, g[p]? = some v → J.g p = v
  | .fromArrays f g M => ∃ J, Made c st r g.length J ∧ J.f = f ∧
      (∀ p v, g[p]? = some v → J.g p = v) ∧
      ∀ p q, p ≤ q → q < g.length → J.h p q = M.val p q ∧ J.h q p = M.val p q
  | .neg a => ∀ F x, JetAt c (sz a) (st.heap a) F x → MadeAt c st r (sz a) (fun y => -F y) x
  | .abs a => ∀ F x, JetAt c (sz a) (st.heap a) F x → F x ≠ 0 →
      MadeAt c st r (sz a) (fun y => |F y|) x
  | .fn φ a => ∀ F x (ψ : Fn ℝ), JetAt c (sz a) (st.heap a) F x → φ = ψ.map XReal.num →
      ψ.dom c.order (F x) → MadeAt c st r (sz a) (fun y => ψ.den (F y)) x
  | .copy a => ∀ J, Shows c (sz a) (st.heap a) J → Made c st r (sz a) J
  | .bin o a b => ∀ F G x, JetAt c (sz a) (st.heap a) F x → JetAt c (sz a) (st.heap b) G x →
      o.dom (F x) (G x) → o.reg (F x) (G x) →
      MadeAt c st r (sz a) (fun y => o.den (F y) (G y)) x
  | .sbin o a s => ∀ F x t, JetAt c (sz a) (st.heap a) F x → s = .num t → o.dom (F x) t →
      MadeAt c st r (sz a) (fun y => o.den (F y) t) x
  | .hypot3 a b e => ∀ F G H x, JetAt c (sz a) (st.heap a) F x → JetAt c (sz a) (st.heap b) G x →
      JetAt c (sz a) (st.heap e) H x → (F x ≠ 0 ∨ G x ≠ 0 ∨ H x ≠ 0) →
      MadeAt c st r (sz a) (fun y => √(F y ^ 2 + G y ^ 2 + H y ^ 2)) x
  | .padRight a m => ∀ J, Shows c (sz a) (st.heap a) J → Made c st r m.toNat
      ⟨J.f, fun p => if p < sz a then J.g p else .num 0,
        fun p q => if p < sz a ∧ q < sz a then J.h p q else .num 0⟩
  | .padLeft a m => ∀ J, Shows c (sz a) (st.heap a) J → Made c st r m.toNat
      ⟨J.f, fun p => if m.toNat - sz a ≤ p then J.g (p - (m.toNat - sz a)) else .num 0,
        fun p q => if m.toNat - sz a ≤ p ∧ m.toNat - sz a ≤ q then
          J.h (p - (m.toNat - sz a)) (q - (m.toNat - sz a)) else .num 0⟩
  | .asg o a b => ∀ F G x, JetAt c (sz a) (st.heap a) F x → JetAt c (sz a) (st.heap b) G x →
      (o = .div → G x ≠ 0) → ¬ (o = .mul ∧ c.order = 2 ∧ a = b) →
      BecameAt c r a (sz a) (fun y => o.den (F y) (G y)) x
  | .mulS a s => ∀ F x t, JetAt c (sz a) (st.heap a) F x → s = .num t →
      BecameAt c r a (sz a) (fun y => F y * t) x
  | .divS a s => ∀ F x t, JetAt c (sz a) (st.heap a) F x → s = .num t → t ≠ 0 →
      BecameAt c r a (sz a) (fun y => F y / t) x
  | .setF a s => ∀ J, Shows c (sz a) (st.heap a) J → Became c r a (sz a) { J with f := s }
  | .setH a i j s => ∀ J, Shows c (sz a) (st.heap a) J →
      Became c r a (sz a) (J.put (sz a) (hCell (sz a) i j).toNat s)
  | .setHm a M => ∀ J, Shows c (sz a) (st.heap a) J → ∃ J', Became c r a (sz a) J' ∧ J'.f = J.f ∧
      (∀ p < sz a, J'.g p = J.g p) ∧
      ∀ p q, p ≤ q → q < sz a → J'.h p q = M.val p q ∧ J'.h q p = M.val p q
  | .resize a m => ∀ J, Shows c (sz a) (st.heap a) J → ∃ J', Became c r a m.toNat J' ∧
      (∀ k < storedLen c.order m.toNat,
        (∀ v, k < storedLen c.order (sz a) → CellIs c.order (sz a) k J v →
          CellIs c.order m.toNat k J' v) ∧
        (storedLen c.order (sz a) ≤ k → CellIs c.order m.toNat k J' (.num 0))) ∧
      r.2.gen a = if sz a < m.toNat then st.gen a + 1 else st.gen a
  | .getF a => ∀ J, Shows c (sz a) (st.heap a) J → r = (.ok (.num J.f), st)
  | .getSize a => r = (.ok (.int (sz a)), st)
  | .getH a i j => ∃ v, r = (.ok (.num v), st) ∧ ∀ J, Shows c (sz a) (st.heap a) J →
      CellIs c.order (sz a) (hCell (sz a) i j).toNat J v
  | .getHm a mode => ∃ M, r = (.ok (.mat M), st) ∧ M.rows = sz a ∧ M.cols = sz a ∧
      ∀ J, Shows c (sz a) (st.heap a) J → ∀ p q : Nat, p < sz a → q < sz a →
        M.rd p q = .ok (if mode = "full" ∨ p ≤ q then J.h p q else .num 0)
  | .eval a d => ∀ (J : Jet ℝ) (e : List ℝ), Shows c (sz a) (st.heap a) J.lift →
      d = e.map XReal.num →
      r = (.ok (.num (.num (taylorPoly c.order (sz a) J fun i => e.getD i 0))), st)
  | .cmp o a b => ∃ t, r = (.ok (.bool t), st) ∧ ∀ J K (u v : ℝ), Shows c (sz a) (st.heap a) J →
      Shows c (sz b) (st.heap b) K → J.f = .num u → K.f = .num v → (t = true ↔ o.rel u v)
  | .cmpS o a s => ∃ t, r = (.ok (.bool t), st) ∧ ∀ J (u v : ℝ), Shows c (sz a) (st.heap a) J →
      J.f = .num u → s = .num v → (t = true ↔ o.rel u v)
  | .sCmp o s a => ∃ t, r = (.ok (.bool t), st) ∧ ∀ J (u v : ℝ), Shows c (sz a) (st.heap a) J →
      J.f = .num u → s = .num v → (t = true ↔ o.rel v u)
  | .repr a => ∀ J, Shows c (sz a) (st.heap a) J → r = (.ok (.str (fmt J.f ++ "hj")), st)
  | .getState a => ∃ xs, r = (.ok (.state [.seq xs]), st) ∧
      xs.length = storedLen c.order (sz a) ∧ ∀ J, Shows c (sz a) (st.heap a) J →
        ∀ k v, xs[k]? = some v → CellIs c.order (sz a) k J v
  | .data a => r.1 = .ok (.arr st.nviews) ∧
      r.2.views st.nviews = ⟨a, st.gen a, 0, storedLen c.order (sz a)⟩
  | .grad a => r.1 = .ok (.arr st.nviews) ∧ r.2.views st.nviews = ⟨a, st.gen a, 1, sz a⟩
  | .peek w i => ∃ v, r = (.ok (.num v), st) ∧
      ∀ J, Shows c (sz (st.views w).obj) (st.heap (st.views w).obj) J →
        CellIs c.order (sz (st.views w).obj) ((st.views w).off + i) J v
  | .poke w i s => ∀ J, Shows c (sz (st.views w).obj) (st.heap (st.views w).obj) J →
      Became c r (st.views w).obj (sz (st.views w).obj)
        (J.put (sz (st.views w).obj) ((st.views w).off + i) s)

/-- The table says that the call returns. -/
def Verdict.Fine : Verdict → Prop
  | .returns _ => True
  | .resizes _ _ => True
  | .raises _ => False
  | .danger => False

end HJ
