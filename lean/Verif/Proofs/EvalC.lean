import Verif.Proofs.Shows
import Verif.Model.Expr

/-!
# Evaluation in closed form (helper lemmas)

`Expr.evalC` computes the contents of the result directly; `evalDD_obj` says that the modelled
code computes exactly that, for every scalar type.
-/

namespace HJ

variable {α V : Type}

section
variable [Arith α]

/-- Contents of `constant(s, n)`. -/
def constC (s : α) (k : Nat) : α := if k = 0 then s else Arith.lit 0

theorem zero_obj {c : Cfg} {n : Nat} (hf : Fits c n) :
    (DD.zero c n : Res (DD α)) = .ok (obj c n fun _ => Arith.lit 0) := by
  unfold DD.zero
  cases hd : c.isDynamic
  · simp only [Bool.false_eq_true, if_false]
    rw [checkValidSize_fits hf]
    simp only [DD.zero0, hd, obj, staticDataSize_eq (hf.static hd), replicate_eq_mk]
    rfl
  · simp only [if_true]
    simp only [DD.vectorZeros, dataLength_eq, replicate_eq_mk]
    rw [if_neg (by omega)]
    simp only [Res.ok_bind, Int.toNat_natCast, obj, hd, if_true]
    rfl

theorem zero0_obj {c : Cfg} {n : Nat} (hf : Fits c n) (hd : c.isDynamic = false) :
    (DD.zero0 c : DD α) = obj c n fun _ => Arith.lit 0 := by
  simp only [DD.zero0, hd, obj, staticDataSize_eq (hf.static hd), replicate_eq_mk]
  rfl

theorem constant_obj {c : Cfg} {n : Nat} (hf : Fits c n) (s : α) :
    DD.constant c s n = .ok (obj c n (constC s)) := by
  unfold DD.constant
  cases hd : c.isDynamic
  · simp only [Bool.false_eq_true, if_false]
    rw [checkValidSize_fits hf]
    simp only [Res.ok_bind, DD.constant0]
    rw [zero0_obj hf hd, setF_obj]
    rfl
  · simp only [if_true, zero_obj hf, Res.ok_bind, setF_obj]
    rfl

/-- Contents of an operation with one scalar operand. -/
def SBin.runC (c : Cfg) (n : Nat) : SBin → (Nat → α) → α → Nat → α
  | .addS => fun a s => addSC a s
  | .sAdd => fun a s => addSC a s
  | .subS => fun a s => addSC a (-ₛ s)
  | .sSub => fun a s => sSubC s a
  | .mulS => fun a s k => a k *ₛ s
  | .sMul => fun a s k => a k *ₛ s
  | .divS => fun a s k => a k *ₛ (Arith.lit 1 ÷ₛ s)
  | .sDiv => fun a s => uFin c n a (s ÷ₛ a 0) (-ₛ s ÷ₛ Arith.powN (a 0) 2)
      (Arith.lit 2 *ₛ s ÷ₛ Arith.powN (a 0) 3)

theorem SBin.run_obj {c : Cfg} (hc : c.order = 1 ∨ c.order = 2) {n : Nat} (hf : Fits c n)
    (o : SBin) (a : Nat → α) (s : α) :
    o.run c (obj c n a) s = .ok (obj c n (o.runC c n a s)) := by
  cases o
  · exact addS_obj a s
  · exact sAdd_obj a s
  · exact subS_obj a s
  · exact sSub_obj hf s a
  · exact mulS_obj hf a s
  · exact sMul_obj hf s a
  · exact divS_obj hf a s
  · exact sDiv_obj hc hf s a

end

section
variable [CMath α]

/-- Contents of a two-operand operation. -/
def Bin.runC (c : Cfg) (n : Nat) : Bin → (Nat → α) → (Nat → α) → Nat → α
  | .add => addC
  | .sub => subC
  | .mul => mulC c n
  | .div => fun a b => divC c n a b (a 0 *ₛ (Arith.lit 1 ÷ₛ b 0))
      (Arith.lit 1 ÷ₛ b 0) (-ₛ a 0 ÷ₛ Arith.powN (b 0) 2) (Arith.lit (-1) ÷ₛ Arith.powN (b 0) 2)
      (Arith.lit 2 *ₛ a 0 ÷ₛ Arith.powN (b 0) 3)
  | .atan2 => atan2C c n
  | .hypot => hypotC c n

theorem Bin.run_obj {c : Cfg} (hc : c.order = 1 ∨ c.order = 2) {n : Nat} (hf : Fits c n)
    (o : Bin) (a b : Nat → α) :
    o.run c (obj c n a) (obj c n b) = .ok (obj c n (o.runC c n a b)) := by
  cases o
  · exact add_obj hc hf a b
  · exact sub_obj hc hf a b
  · exact mul_obj hc hf a b
  · exact div_obj hc hf a b
  · exact atan2_obj hc hf a b
  · exact hypot_obj hc hf a b

/-- Contents of a unary function. -/
def Fn.runC (c : Cfg) (n : Nat) (φ : Fn α) (a : Nat → α) : Nat → α :=
  uFin c n a (φ.coef (a 0)).f (φ.coef (a 0)).da (φ.coef (a 0)).daa

/-- Contents of `abs`. -/
def absC (a : Nat → α) (k : Nat) : α := if Cmp.ltB (a 0) (Arith.lit 0) then -ₛ a k else a k

/-- Contents of the value of an expression. -/
def Expr.evalC (c : Cfg) (n : Nat) (ρ : V → Nat → α) : Expr α V → Nat → α
  | .var v => ρ v
  | .const s => constC s
  | .neg e => fun k => -ₛ e.evalC c n ρ k
  | .abs e => absC (e.evalC c n ρ)
  | .fn φ e => φ.runC c n (e.evalC c n ρ)
  | .bin o e₁ e₂ => o.runC c n (e₁.evalC c n ρ) (e₂.evalC c n ρ)
  | .sbin o e s => o.runC c n (e.evalC c n ρ) s
  | .hypot3 e₁ e₂ e₃ => hypot3C c n (e₁.evalC c n ρ) (e₂.evalC c n ρ) (e₃.evalC c n ρ)

theorem evalDD_obj {c : Cfg} (hc : c.order = 1 ∨ c.order = 2) {n : Nat} (hf : Fits c n)
    (ρ : V → Nat → α) (e : Expr α V) :
    e.evalDD c n (fun v => obj c n (ρ v)) = .ok (obj c n (e.evalC c n ρ)) := by
  induction e with
  | var v => rfl
  | const s => exact constant_obj hf s
  | neg e ih => simp only [Expr.evalDD, ih, Res.ok_bind, Expr.evalC]; exact neg_obj hf _
  | abs e ih => simp only [Expr.evalDD, ih, Res.ok_bind, Expr.evalC]; exact abs_obj hf _
  | fn φ e ih => simp only [Expr.evalDD, ih, Res.ok_bind, Expr.evalC]; exact un_obj hc hf _ _
  | bin o e₁ e₂ ih₁ ih₂ =>
    simp only [Expr.evalDD, ih₁, ih₂, Res.ok_bind, Expr.evalC]; exact o.run_obj hc hf _ _
  | sbin o e s ih => simp only [Expr.evalDD, ih, Res.ok_bind, Expr.evalC]; exact o.run_obj hc hf _ _
  | hypot3 e₁ e₂ e₃ ih₁ ih₂ ih₃ =>
    simp only [Expr.evalDD, ih₁, ih₂, ih₃, Res.ok_bind, Expr.evalC]; exact hypot3_obj hc hf _ _ _

end

end HJ
