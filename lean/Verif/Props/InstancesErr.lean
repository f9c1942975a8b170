import Verif.Props.Shape
import Verif.Props.Program
import Verif.Props.Sparse
import Verif.Props.Error
import Verif.Props.Local
import Verif.Props.Rate
import Verif.Props.Uniform
import Verif.Props.Finite
import Verif.Props.Watch
import Verif.Props.SPrecise
import Verif.Props.PyPrecise
import Verif.Props.SPyPrecise
import Verif.Props.SEvalErr
import Verif.Props.CallerFinite
import Verif.Props.Mixed

/-!
# Concrete cases of theorems that have none beside them (errors)
-/

namespace HJ

open DD Filter Topology
open XReal (num)

/-! ## Comparisons, in-place operators, sparse against dense -/

/-- C32: `3 < x` for a jet with the value 10, and `nan == x`. -/
example : DD.sCmp .lt (num 3) (obj exDyn2 2 fun _ => num 10) = .ok true ∧
    DD.sCmp .eq XReal.nan (obj exDyn2 2 fun _ => num 10) = .ok false := by
  have h := shows_obj (c := exDyn2) (Or.inr rfl) (Or.inl rfl) (n := 2) fun _ => num 10
  constructor
  · rw [C32_scalar_left h .lt (num 3)]
    simp [CmpOp.scalar, Cmp.ltB, jetOf, XReal.lt]
    norm_num
  · rw [C32_scalar_left h .eq XReal.nan]
    exact congrArg Res.ok (by classical exact decide_eq_false_iff_not.2 id)

/-- C37: `a += b` of jets with 2 and 1 variables throws, because of the sizes. -/
example : checkEqualSize exDyn2 (exJet.size exDyn2) ((obj exDyn2 1 fun _ => (1 : ℚ)).size exDyn2) =
    .throw .incompatibleSize :=
  (C37_throws_before_writing exDyn2 .add exJet).1 (.obj (obj exDyn2 1 fun _ => 1)) _ (by decide)

/-- C45: `sin(a) * a` on a composite operand: value 4 and derivatives 5 for `"x"` and 6 for `"y"`. -/
example : ∃ r s, (Expr.bin .mul (.fn .sin (.var ())) (.var ())).evalDD exDyn1 2
      (fun _ => obj exDyn1 2 (packJet 2 (⟨num 4, fun i => num (5 + i), fun _ _ => num 0⟩ : Jet XReal))) =
        .ok r ∧
    (Expr.bin .mul (.fn .sin (.var ())) (.var ())).evalSS exRev
      (fun _ => SS.make exFwd (num 4) [("x", num 5), ("y", num 6)]) = .ok s ∧
    s.f = r.f ∧ r.g exDyn1 0 = .ok (s.d "x") ∧ r.g exDyn1 1 = .ok (s.d "y") := by
  have h := SS.is_make exFwd_ok (m := [("x", num 5), ("y", num 6)]) (by simp [SMap.keys])
    (fun _ => rfl) (num 4)
  obtain ⟨r, s, h1, h2, h3⟩ := C45_agree (n := 2) exRev_ok exDyn1_valid rfl (Or.inl rfl)
    (.bin .mul (.fn .sin (.var ())) (.var ())) (fun i => if i = 0 then "x" else "y")
    (fun _ => obj exDyn1 2 (packJet 2 (⟨num 4, fun i => num (5 + i), fun _ _ => num 0⟩ : Jet XReal)))
    (fun _ => SS.make exFwd (num 4) [("x", num 5), ("y", num 6)])
    (fun _ => ⟨4, fun i => 5 + i, fun _ _ => 0⟩)
    (fun _ => shows_packJet (Or.inl rfl) (Or.inl rfl) _ fun h => absurd h (by decide))
    (fun _ => h.wf) (fun _ => ⟨⟨4, SS.f_ok h⟩, fun k => by
      rw [SS.d_eq h]
      by_cases h1 : "x" = k
      · exact ⟨5, by simp [SMap.find_cons, h1]⟩
      · by_cases h2 : "y" = k
        · exact ⟨6, by simp [SMap.find_cons, h1, h2]⟩
        · exact ⟨0, by simp [SMap.find_cons, h1, h2]⟩⟩) (fun _ => SS.f_ok h) (fun _ i hi => by
      rw [SS.d_eq h]
      interval_cases i <;> simp [SMap.find_cons]
      norm_num)
  obtain ⟨h4, h5⟩ := h3 (Or.inl (Or.inl (by simp [Expr.Dom, Fn.dom, Bin.dom])))
  exact ⟨r, s, h1, h2, h4, h5 0 (by norm_num), h5 1 (by norm_num)⟩

/-! ## Rounding errors of expressions -/

/-- C69 and C71 on expressions: a box, all arithmetics. -/
example := C70_rate exDyn2_valid (Or.inl rfl) exConv (S := Set.Icc ![-3 / 4, 2] ![-1 / 4, (4 : ℝ)])
  isCompact_Icc (fun _ hx => (exConv_box hx).1) (fun _ hx => (exConv_box hx).2.1)
  fun _ hx => (exConv_box hx).2.2

example := C71_rate exDyn2_valid (Or.inl rfl) exConv (S := Set.Icc ![-3 / 4, 2] ![-1 / 4, (4 : ℝ)])
  isCompact_Icc (fun _ hx => (exConv_box hx).1) (fun _ hx => (exConv_box hx).2.1)
  fun _ hx => (exConv_box hx).2.2

example := C71_sparse exNamed (S := Set.Icc (fun _ : String => (1 : ℝ)) fun _ => 2) isCompact_Icc
  (fun _ hx => exNamed_box hx) (fun _ _ => by simp [exNamed, Expr.Regular, Bin.reg])
  fun _ _ => by simp [exNamed, Expr.PowPos]

/-- C58: `(x₀ + 3 x₁) x₀ - x₁` in `double`, at any point and on any jets of 2 variables. -/
example (x : Fin 2 → Rounded nearest) :=
  @C58_variables exDyn2 2 _ (exLib nearest) _ (roundedErr nearest_spec (exLib nearest) rfl) exDyn2_valid
    (Or.inl rfl) (exPoly nearest) (by simp [exPoly, Expr.Poly]) x

example (a : Nat → Rounded nearest) (F G : (Fin 2 → ℝ) → ℝ) (x y : Fin 2 → ℝ) :=
  @C58_polynomial exDyn2 2 (Fin 2) _ (exLib nearest) _ (roundedErr nearest_spec (exLib nearest) rfl)
    exDyn2_valid (fun _ => obj exDyn2 2 a) (fun _ => jetOf 2 a) (Or.inl rfl)
    (fun _ => shows_obj (Or.inr rfl) (Or.inl rfl) a) (exPoly nearest) (by simp [exPoly, Expr.Poly])
    (fun _ => F) (fun _ => G) x y

/-- C58: `(x + 1) - x` at `2⁵³` in `double` is wrong by 1. -/
example := C58_cancellation nearest_spec exSta2_valid

/-- C67: `atan2` of jets with the values -3 and 4 in any arithmetic. -/
example {α : Type} [CMath α] {u : ℝ} (M : LibErr α u) (hu : u ≤ 1 / 10) (a b : Nat → α)
    (ha : M.val (a 0) = -3) (hb : M.val (b 0) = 4) :=
  C67_operation M hu exDyn2_valid (Or.inl rfl) (.bin .atan2) ![obj exDyn2 2 a, obj exDyn2 2 b]
    ![jetOf 2 a, jetOf 2 b]
    (fun v => by
      fin_cases v
      · exact shows_obj (Or.inr rfl) (Or.inl rfl) a
      · exact shows_obj (Or.inr rfl) (Or.inl rfl) b)
    (by simp [Op.Stable, jetOf, ha, hb, Bin.dom, Bin.reg])

/-- C69: `double` needs the order of the error. -/
example := C69_sharp (1 / 2 ^ 53) (by norm_num) (by norm_num)

/-- C72: `6 / 2` with any derivatives in `double`, and the same for `hypot` of the two. -/
example (g h : Nat → ℝ) :=
  C72_operation (p := 53) (emax := 1023) (n := 2) (by norm_num) exDyn1_valid (Or.inl rfl)
    (Op.bin Bin.div)
    ![⟨6, g, fun _ _ => 0⟩, ⟨2, h, fun _ _ => 0⟩]
    (fun _ => shows_packJet (Or.inl rfl) (Or.inl rfl) _ fun h => absurd h (by decide))
    (fun _ => shows_packJet (Or.inl rfl) (Or.inl rfl) _ fun h => absurd h (by decide))
    (by simp [Op.map, Op.Stable, Bin.dom, Bin.reg])

example (g h : Nat → ℝ) :=
  C72_operands (p := 53) (emax := 1023) (n := 2) exDyn1_valid (Or.inl rfl)
    (.bin .hypot (.var 0) (.var 1) : Expr ℝ (Fin 2))
    (J := fun v => (![(⟨6, g, fun _ _ => 0⟩ : Jet ℝ), ⟨2, h, fun _ _ => 0⟩] v).mapv fun s => ⟨.num s⟩)
    (L := fun v => (![(⟨6, g, fun _ _ => 0⟩ : Jet ℝ), ⟨2, h, fun _ _ => 0⟩] v).mapv fun s => ⟨s, True⟩)
    (fun _ => shows_packJet (Or.inl rfl) (Or.inl rfl) _ fun h => absurd h (by decide))
    (fun _ => shows_packJet (Or.inl rfl) (Or.inl rfl) _ fun h => absurd h (by decide))
    (fun _ => ⟨fun _ => rfl, fun _ _ _ => rfl, fun _ _ _ _ _ _ => rfl⟩)

/-- C86: two names, derivatives and differences up to 100. -/
example := C86_rate {"u", "v"} 8 100

/-! ## Rounding errors of programs -/

theorem exNewton_fun : ∃ U : (Fin 2 → ℝ) → Fin 2 → ℝ, U ![2, 1] = ![2, 17 / 12] ∧
    ∀ᶠ y in 𝓝 ![2, 1], RealRun exNewton (startVal (fun v : Fin 2 => .inl v) y) (U y) := by
  have hp : PreciseRun exDyn2.order 2 exNewton (startVal (fun v : Fin 2 => .inl v) ![2, 1])
    ![2, 17 / 12] := exNewton_precise
  obtain ⟨U, h1, h2⟩ := hp.lift (c := exDyn2) exDyn2_valid (Or.inl rfl)
    (F := startVal fun v : Fin 2 => .inl v) (fun v => startJet_isJet _ _ _ v)
  exact ⟨U, h2, h1.real⟩

/-- C68 and C69: Newton's iteration for `√2` from 1, two rounds. -/
example := C68_limit (c := exDyn2) exDyn2_valid (Or.inl rfl) exNewton (startVal fun v : Fin 2 => .inl v)
  exNewton_fun.choose ![2, 1] ![2, 17 / 12] (startJet (fun v => .inl v) ![2, 1])
  (fun v => startJet_isJet _ _ _ v) exNewton_precise exNewton_fun.choose_spec.2

example := C69_programs (c := exDyn2) exDyn2_valid (Or.inl rfl) exNewton
  (startVal fun v : Fin 2 => .inl v) exNewton_fun.choose ![2, 1] ![2, 17 / 12]
  (startJet (fun v => .inl v) ![2, 1]) (fun v => startJet_isJet _ _ _ v) exNewton_precise
  exNewton_fun.choose_spec.2

/-- C70 and C71: both branches, on `[0, 1] ∪ [3, 4]`. -/
example := C70_programs exDyn2_valid (Or.inl rfl) exTwo (startVal ![.inl 0, .inr 0]) exTwoFun
  (S := Set.Icc (fun _ : Fin 1 => (0 : ℝ)) (fun _ => 1) ∪ Set.Icc (fun _ => 3) (fun _ => 4))
  (isCompact_Icc.union isCompact_Icc) (startJet ![.inl 0, .inr 0])
  (fun x _ => startJet_isJet _ _ x) (fun v => (startJet_continuous _ v).1.continuousOn)
  (fun v i _ => ((startJet_continuous _ v).2.1 i).continuousOn)
  (fun _ v i _ j _ => ((startJet_continuous _ v).2.2 i j).continuousOn)
  (fun _ hx => exTwo_precise (exTwo_away hx)) fun _ _ => .of_forall fun y => exTwo_run y

example := C71_programs exDyn2_valid (Or.inl rfl) exTwo (startVal ![.inl 0, .inr 0]) exTwoFun
  (S := Set.Icc (fun _ : Fin 1 => (0 : ℝ)) (fun _ => 1) ∪ Set.Icc (fun _ => 3) (fun _ => 4))
  (isCompact_Icc.union isCompact_Icc) (startJet ![.inl 0, .inr 0])
  (fun x _ => startJet_isJet _ _ x) (fun v => (startJet_continuous _ v).1.continuousOn)
  (fun v i _ => ((startJet_continuous _ v).2.1 i).continuousOn)
  (fun _ v i _ j _ => ((startJet_continuous _ v).2.2 i j).continuousOn)
  (fun _ hx => exTwo_precise (exTwo_away hx)) fun _ _ => .of_forall fun y => exTwo_run y

/-! ## Rounding errors of client code -/

/-- C80: powers of the variable `"u"` in a loop, in all arithmetics. -/
example (N : Nat) (x : String → ℝ) := C80_rate (x := x) (exSVarPowers (x "u") N) (q := none)
  (q' := some 0) (fun _ _ => 1)
  (fun y => (exSPowers_ends x y N ((SStmt.vari 0 "u" (x "u")).den x y fun _ => 1)).choose)
  {"u", "v"} (fun _ _ => differentiableAt_const _)
  (Caller.Ends.call (k := SCall.act (.vari 0 "u" (x "u"))) (r := .done) rfl
    ⟨SSureCall.act _ _ trivial, trivial⟩
    (exSVarPowers_rest (exSPowers_precise
      ((exSPowers_ends x x N ((SStmt.vari 0 "u" (x "u")).den x x fun _ => 1)).choose_spec.2.1 rfl))))
  (.of_forall fun y =>
    ⟨some 0, Caller.Ends.call (k := SCall.act (.vari 0 "u" (x "u"))) (r := .done) rfl
      (SRealCall.act _ _) (exSVarPowers_rest
        (exSPowers_ends x y N ((SStmt.vari 0 "u" (x "u")).den x y fun _ => 1)).choose_spec.1)⟩)

/-- C82 and C83: the same in Python. -/
example (N : Nat) (x : Fin 1 → ℝ) := C82_rate exDyn2_valid (Or.inl rfl) (exPyPowers (x 0) N)
  (fun _ => ⟨0, fun _ => 0, fun _ _ => 0⟩) (fun a ha => absurd ha (Nat.not_lt_zero a))
  ((exPyPowers_ends N x).choose_spec.1.mono fun _ _ _ _ h => h.2)

example (N : Nat) (x : String → ℝ) := C83_rate (exSPyPowers (x "u") N) {"u", "v"}
  (fun a ha => absurd ha (Nat.not_lt_zero a))
  ((exSPyPowers_ends N x).choose_spec.1.mono fun _ _ _ _ h => h.2)

/-- C84: repeated squaring on an interval, in all arithmetics. -/
example (N : Nat) (lo hi : ℝ) := C84_rate exDyn2_valid (n := 1) (Or.inl rfl) (exPowers ℝ) N (fun _ => 0)
  (startVal ![.inl 0, .inr 1]) (fun y => (exPowers_ends N (startVal ![.inl 0, .inr 1] y)).choose)
  (isCompact_Icc (a := fun _ : Fin 1 => lo) (b := fun _ => hi)) (startJet ![.inl 0, .inr 1])
  (fun x _ => startJet_isJet _ _ x) (fun v => (startJet_continuous _ v).1.continuousOn)
  (fun v i _ => ((startJet_continuous _ v).2.1 i).continuousOn)
  (fun _ v i _ j _ => ((startJet_continuous _ v).2.2 i j).continuousOn)
  (fun x _ => ⟨_, (exPowers_ends N (startVal ![.inl 0, .inr 1] x)).choose_spec.1⟩)
  (fun _ _ => .of_forall fun y =>
    ⟨0, (exPowers_ends N (startVal ![.inl 0, .inr 1] y)).choose_spec.1.mono fun _ _ _ _ h => h.1.real⟩)

theorem exSquare_ends : ∃ σ', (newton exSquare (1 / 1000)).Ends (MixCall 1 fun _ : Fin 1 => 0) (0, .seed)
    ⟨startVal fun _ => .inr 0, fun _ => 2⟩ (0 + 2, .stop) σ' := by
  obtain ⟨σ', h, -⟩ := newton_ends (x := fun _ => 0) (order := 1) (tol := 1 / 1000) (F := exSquare)
    (Or.inl rfl) 2
    (z := fun j => if j = 0 then 2 else if j = 1 then 3 / 2 else 17 / 12)
    (fun j hj => by
      rw [exSquare_deriv, exSquare_of1]
      interval_cases j <;> norm_num)
    (fun j _ => ⟨⟨⟨trivial, trivial, trivial⟩, trivial⟩, ⟨trivial, trivial, trivial⟩, trivial, trivial⟩)
    (fun j hj => by
      rw [exSquare_deriv, exSquare_of1]
      interval_cases j <;> norm_num)
    (by rw [exSquare_of1]; norm_num) ⟨startVal fun _ => .inr 0, fun _ => 2⟩ rfl 0
  exact ⟨σ', h⟩

/-- C87: Newton's method for `√2` from 2, in all arithmetics and formats. -/
example := C87_rate (c := exDyn1) exDyn1_valid (Or.inl rfl) (newton exSquare (1 / 1000))
  (startJet (fun _ => .inr 0) fun _ => 0)
    (startJet_isJet _ (fun _ => .inr 0) _) exSquare_ends.choose_spec

example := C87_formats (c := exDyn1) exDyn1_valid (Or.inl rfl) (newton exSquare (1 / 1000))
  (fun _ => .inr 0) (fun _ => 2) exSquare_ends.choose_spec

end HJ
