import Verif.Props.Renumber
import Verif.Props.Pad
import Verif.Props.Construct
import Verif.Props.Access
import Verif.Props.Shape
import Verif.Props.Python
import Verif.Props.Program
import Verif.Props.Names
import Verif.Props.Objects
import Verif.Props.Machine
import Verif.Props.Threads
import Verif.Props.PyHeap
import Verif.Props.PyExceptions
import Verif.Props.EvalErr
import Verif.Props.PyApi
import Verif.Props.PyValues
import Verif.Props.Sparse

/-!
# Concrete cases of theorems that have none beside them
-/

namespace HJ

open DD Filter Topology
open XReal (num)

/-! ## Access, construction, sizes -/

/-- C03: writing the mixed second derivative of `exJet` keeps everything else. -/
example : ∃ y, exJet.setH exDyn2 1 0 7 = .ok y ∧ y.h exDyn2 0 1 = .ok 7 ∧ y.h exDyn2 1 1 = .ok 60 ∧
    y.g exDyn2 1 = .ok 30 := by
  obtain ⟨y, h1, h2⟩ := (C03_framed_writes exDyn2_valid exJet_shows 7).2.2.1 rfl 1 0 (by omega) (by omega)
  refine ⟨y, h1, ?_, ?_, ?_⟩
  · have := h2.h rfl 0 1 (by omega) (by omega); simpa [hUpdate] using this
  · have := h2.h rfl 1 1 (by omega) (by omega); simpa [hUpdate] using this
  · have := h2.g 1 (by omega); simpa using this

/-- C05: six numbers make a static jet of two variables, five do not. -/
example : (∃ x, DD.create exSta2 [some 10, some 20, some 30, some 40, some 50, some (60 : ℚ)] = .ok x ∧
      x.size exSta2 = 2) ∧
    ∃ err, DD.create exSta2 [some 10, some 20, some 30, some 40, some (50 : ℚ)] = .throw err := by
  refine ⟨?_, (C05_create_static exSta2_valid rfl (N := 2) rfl _).2 (by decide)⟩
  obtain ⟨x, h1, h2, -⟩ := (C05_create_static exSta2_valid rfl (N := 2) rfl
    [some 10, some 20, some 30, some 40, some 50, some (60 : ℚ)]).1 (by decide)
  exact ⟨x, h1, h2⟩

/-- C06: the pickles of different jets differ. -/
example : pickleGet exJet ≠ pickleGet exJet' := fun h => by
  have := C06_injective exJet_wf exJet'_wf exDyn2_valid h
  exact absurd (congrArg DD.mData this) (by decide)

/-- C07: without exceptions and with assertions, a wrong size argument aborts; a right one does not. -/
example : DD.zero { exSta2 with exc := false, dbg := true } 3 = (.abort : Res (DD ℚ)) ∧
    DD.zero { exSta2 with exc := false, dbg := true } 2 =
      .ok (DD.zero0 { exSta2 with exc := false, dbg := true } : DD ℚ) := by
  constructor
  · rw [C07_static_size_argument_noexc (N := 2) rfl rfl]; rfl
  · rw [C07_static_size_argument_noexc (N := 2) rfl rfl]; rfl

/-- C08: `constant(5)` of a static type has the declared size. -/
example : ∃ x, DD.constant0 exSta2 (5 : ℚ) = .ok x ∧ Shows exSta2 2 x (constJet 5) :=
  (C08_factories_without_size exSta2_valid (5 : ℚ)).1

/-- C10: order 3 is refused. -/
example : hjVariables exDyn2 [(1 : ℚ), 2] 3 = .throw .invalidOrder :=
  (C10_other_orders exDyn2 _).2 3 (by decide) (by decide) (by decide)

/-- C14: growing keeps value and gradient at order 2. -/
example : ∃ y, exJet.resize exDyn2 5 = (.ok (), y) ∧ y.size exDyn2 = 5 ∧ y.g exDyn2 1 = .ok 30 := by
  obtain ⟨y, h1, -, h2, -, h3⟩ := C14_resize_order2 rfl rfl exJet_shows 5
  exact ⟨y, h1, h2, by simpa using h3 1 (by omega) (by omega)⟩

/-- C14: growing at order 1. -/
example : ∃ y J, exJet1.resize exDyn1 5 = (.ok (), y) ∧ Shows exDyn1 5 y J := by
  obtain ⟨hf, a, ha⟩ := exJet1_wf.eq_obj (Or.inl rfl)
  obtain ⟨y, h1, h2⟩ := C14_resize_order1 rfl rfl (ha ▸ shows_obj (Or.inl rfl) hf a) 5
  exact ⟨y, _, h1, h2⟩

/-- C15: without exceptions and with assertions, operands of different sizes abort. -/
example : DD.mul { exDyn2 with exc := false, dbg := true } exX ⟨1, [some (num 1), some (num 2), some (num 3)]⟩
    = .abort :=
  (C15_size_mismatch_noexc (c := { exDyn2 with exc := false, dbg := true }) rfl rfl rfl
    (by simp [DD.size, exX, Cfg.isDynamic, exCfg])).2.2.1

/-! ## Calculus -/

/-- C20: the accepted result outside the domain, at order 2. -/
example : ∃ r, evalAt exDyn2 (.fn .atan (.sbin .sDiv (.const 0) 1) : Expr ℝ (Fin 0)) (fun _ => 0) = .ok r ∧
    FiniteDD r :=
  (C20_no_variable exDyn2_valid rfl).imp fun _ h => ⟨h.1, h.2.1⟩

/-- C30: the jets of `sin²(e) + cos²(e)` and `1` agree for `e = exp(x)/y`. -/
example : ∃ r, evalAt exDyn2 (.bin .add (.bin .mul (.fn .sin exExpr) (.fn .sin exExpr))
      (.bin .mul (.fn .cos exExpr) (.fn .cos exExpr))) ![0, 2] = .ok r ∧
    evalAt exDyn2 (.const 1 : Expr ℝ (Fin 2)) ![0, 2] = .ok r :=
  C30_sin_cos exDyn2_valid (Or.inl rfl) exExpr ![0, 2] exExpr_regular (exExpr_dom _)

example : ∃ r, evalAt exDyn2 (.hypot3 exExpr (.var 1) (.var 0)) ![0, 2] = .ok r ∧
    evalAt exDyn2 (.bin .hypot (.bin .hypot exExpr (.var 1)) (.var 0)) ![0, 2] = .ok r :=
  C30_hypot exDyn2_valid (Or.inl rfl) exExpr (.var 1) (.var 0) ![0, 2] exExpr_regular trivial trivial
    (exExpr_dom _) trivial trivial (fun h => by simpa [Expr.den] using h.2)

example : ∃ r, evalAt exDyn2 (.fn (.pow 2) exExpr) ![0, 2] = .ok r ∧
    evalAt exDyn2 (.bin .mul exExpr exExpr) ![0, 2] = .ok r :=
  C30_pow_two exDyn2_valid (Or.inl rfl) exExpr ![0, 2] exExpr_regular (exExpr_dom _)

/-- C30: `x * y` and `y * x` are equal functions, so their jets are equal whenever both are accepted. -/
example : ∃ r₁ r₂, evalAt exDyn2 (.bin .mul (.var 0) (.var 1) : Expr ℝ (Fin 2)) ![0, 2] = .ok r₁ ∧
    evalAt exDyn2 (.bin .mul (.var 1) (.var 0)) ![0, 2] = .ok r₂ ∧
    (Accepted exDyn2 2 (.bin .mul (.var 0) (.var 1)) ![0, 2] r₁ →
      Accepted exDyn2 2 (.bin .mul (.var 1) (.var 0)) ![0, 2] r₂ → r₁ = r₂) :=
  C30_equal_functions exDyn2_valid (Or.inl rfl) _ _ ![0, 2]
    (by simp [Expr.Regular, Bin.reg]) (by simp [Expr.Regular, Bin.reg])
    (.of_forall fun y => mul_comm _ _)

/-- C32: comparisons look at the values only. -/
example : DD.cmp .lt exJet exJet = .ok false ∧ DD.cmpS .ge exJet 8 = .ok true :=
  ⟨(C32_comparisons exJet_shows exJet_shows .lt 8).1, (C32_comparisons exJet_shows exJet_shows .ge 8).2.1⟩

/-- C34: padding on the left commutes with `u * u`. -/
example : ∃ r r', (.bin .mul (.var ()) (.var ()) : Expr ℝ Unit).evalDD exDyn2 2 (fun _ => exR) = .ok r ∧
    ∃ ρ', (.bin .mul (.var ()) (.var ()) : Expr ℝ Unit).evalDD exDyn2 5 (fun _ => ρ') = .ok r' ∧
      r.padLeft exDyn2 5 = .ok r' := by
  obtain ⟨ρ', h⟩ : ∃ ρ', exR.padLeft exDyn2 5 = .ok ρ' := by
    obtain ⟨hf, a, ha⟩ := exR_wf.eq_obj (Or.inr rfl)
    have h := (C13_pad_left exDyn2_valid rfl (ha ▸ shows_obj (Or.inr rfl) hf a) 5).1 (by omega)
    exact h.imp fun y hy => hy.1
  obtain ⟨r, r', h1, h2, h3⟩ := C34_pad_left_commutes exDyn2_valid rfl (n := 2) (m := 5) (by omega)
    (ρ := fun _ : Unit => exR)
    (ρ' := fun _ => ρ') (fun _ => exR_wf) (fun _ => h) (.bin .mul (.var ()) (.var ()))
  exact ⟨r, r', h1, ρ', h2, h3⟩

/-! ## Programs, objects, threads -/

/-- C37: `a *= b` leaves `b` alone, even when it throws. -/
example : ((Stmt.upd .mul 0 (.var 1) : Stmt XReal (Fin 2)).run exDyn2 2
    (fun v => if v = 0 then exX else exPlain)).2 1 = exPlain :=
  C37_only_target exDyn2 2 _ _ 1 (by decide)

/-- C47: in a release build without exceptions a length that no jet has is accepted. -/
example : ∃ s, sizeFromDataLength { exDyn2 with exc := false, dbg := false } 7 = .ok s :=
  (C47_release_accepts (c := { exDyn2 with exc := false, dbg := false })
    ⟨Or.inr rfl, Or.inl rfl, exRoot⟩ rfl rfl 7).1

/-- C60: a jet of a million variables. -/
example : dataLength64 exDyn2 1000000 = some 500001500001 := by
  have := C60_length (c := exDyn2) (Or.inr rfl) (n := 1000000)
    (by norm_num [Storable, storedLen, exCfg])
  simpa [storedLen, exCfg] using this

example : ieee.sqrt (ieee.conv ((2 * 1000000000 + 1) * (2 * 1000000000 + 1))) = 2 * 1000000000 + 1 := by
  have := C60_root ieee_correct 1000000000 (by norm_num)
  exact_mod_cast this

example : decode64 exDyn2 ieee 6 = some (sizeFromDataLength exDyn2 6) :=
  C60_agrees exDyn2_valid rfl ieee_correct (L := 6) (by norm_num) (by norm_num [Storable])

/-- C74: two threads, any schedule. -/
example (l : List Bool) (ρ : Store ℝ (Option Bool)) :
    (∃ q' ρ', runThreads (fun t => exWorker ℝ t) (ddLibrary ℝ _ exDyn2 1) l (fun _ => 3) ρ =
      (.ok q', ρ') ∧ ρ' none = ρ none) ∨
    ∃ t, (runThreads (fun t => exWorker ℝ t) (ddLibrary ℝ _ exDyn2 1) l (fun _ => 3) ρ).1.outcome ≠ .ok () ∧
      (runThreads (fun t => exWorker ℝ t) (ddLibrary ℝ _ exDyn2 1) l (fun _ => 3) ρ).1.outcome =
        ((exWorker ℝ t).steps (ddLibrary ℝ _ exDyn2 1) (l.count t) 3 ρ).1.outcome := by
  rcases C74_threads exDyn2 1 (fun t => exWorker ℝ t) id
    (fun t q k h => (exWorker_stays t q k h).1) l (fun _ => 3) ρ with h | h
  · obtain ⟨q', ρ', h1, h2, -⟩ := h
    exact Or.inl ⟨q', ρ', h1, h2 none rfl⟩
  · exact Or.inr h

/-- C76: adding jets of one and two variables throws and changes nothing. -/
example (ρ : Store ℝ (Fin 3)) (h : ObjSizes exDyn2 ![some 1, some 2, none] ρ) :
    ∃ e, objLibrary ℝ (Fin 3) exDyn2 (.make 2 (.bin .add 0 1)) ρ = (.ok (.threw e), ρ) := by
  have := C76_call exDyn2_valid rfl h (.make 2 (.bin .add 0 1))
  simp only [ObjCall.fate, Maker.fate, Fate.live, Matrix.cons_val_zero, Matrix.cons_val_one, Fate.map] at this
  exact ⟨_, this⟩

/-- C76: with exceptions caught and the smaller jet padded the sum exists, whatever the contents. -/
example (ρ : Store ℝ (Fin 3)) (h : ObjSizes exDyn2 ![some 1, some 2, none] ρ) (j : Nat) :
    (exPadded ℝ).run (objLibrary ℝ (Fin 3) exDyn2) j 4 ρ = none ∨
      ∃ q' sz' ρ', (exPadded ℝ).run (objLibrary ℝ (Fin 3) exDyn2) j 4 ρ = some (.ok q', ρ') ∧
        exPaddedInv q' sz' ∧ ObjSizes exDyn2 sz' ρ' :=
  C76_safe exDyn2_valid rfl (exPadded ℝ) (exPadded_careful ℝ) 4 ⟨rfl, rfl⟩ h j

/-- C76: `std::swap` of two jets of different sizes. -/
example : ∃ ρ', objLibrary ℝ (Fin 2) exDyn2 (.swap 0 1) ![exR, ⟨0, [some 5]⟩] = (.ok .done, ρ') ∧
    ρ' 0 = ⟨0, [some 5]⟩ ∧ ρ' 1 = exR := by
  obtain ⟨ρ', h1, h2, h3, -⟩ := (C76_contents (c := exDyn2) (![exR, ⟨0, [some 5]⟩] : Fin 2 → DD ℝ) 0 1).2
  exact ⟨ρ', h1, h2, h3⟩

/-! ## Python -/

/-- C48: `hj.f`, `hj.d`, `hj.dd` of an empty list. -/
example : hjD ([] : List (PyElem ℚ)) = .throw .valueError := (C48_empty (α := ℚ) fun _ => none).2.1

/-- C57: `hj.hypot(y, z)` is `y.hypot(z)`. -/
example : callMethod moduleDefs (ddMembers exDyn2) exX "hypot" [.jet exX] =
    callMethod ddDefs (ddMembers exDyn2) exX "hypot" [.jet exX] :=
  C57_module exDyn2 exX _

/-- C59: `x.resize(5)` keeps the arrays that exist, and no new one appears. -/
example : ((ApiCall.resize 0 5).run exShip (fun _ => "") exVal).2.nviews = exVal.nviews :=
  (C59_arrays exShip (fun _ => "") exVal (.resize 0 5)).2.1

/-- C78: a statement that raises `ZeroDivisionError` changes nothing. -/
example : ((PyStmt.upd .div 0 (.op .div (.lit (num 1)) (.name 1)) : PyStmt XReal (Fin 2) Unit).run exDyn2 1
    exHalveSt).2 = exHalveSt :=
  C78_statement exDyn2_valid (Or.inl rfl) (fun _ => Nat.one_pos)
    (.upd .div 0 (.op .div (.lit (num 1)) (.name 1))) ⟨trivial, trivial⟩ _ exHalveSt_good (e := .zeroDivision) (by simp only [PyStmt.run, exZero_eval exHalveSt rfl])

/-! ## Rounding -/

/-- C85: `eval` after code with a branch, on one side of it. -/
example : ∃ (K : ℝ) (k m : Nat),
    ∀ x ∈ Set.Icc (fun _ : Fin 1 => (2 : ℝ)) (fun _ => 3), ∀ b ≥ k, ∀ emax ≥ k, ∀ ρ,
      Starts exDyn2 (fun i => IEEE.enc b emax (x i)) (IEEE.enc b emax) ![.inl 0, .inr 0] ρ →
        ∃ ρ', (∀ j ≥ m, (exSplit.map (Call.map (IEEE.enc b emax)) (Answer.map IEEE.real)).run
            (ddLibrary _ (Fin 2) exDyn2 1) j (0, false) ρ = some (.ok (2, decide (x 0 < 1)), ρ')) ∧
          ∀ v (δ : Fin 1 → ℝ), (∀ i, |δ i| ≤ 4) →
            ∃ a, (ρ' v).eval exDyn2 (List.ofFn fun i => IEEE.enc b emax (δ i)) = .ok a ∧ a.val.Fin ∧
              |a.real - taylorAt 2 (fun y => (![y 0, if y 0 < 1 then -y 0 else y 0 * y 0] : Fin 2 → ℝ) v)
                x δ| ≤ K / 2 ^ b := by
  have e0 : ∀ y : Fin 1 → ℝ, startVal ![.inl 0, .inr 0] y = ![y 0, 0] := fun y =>
    funext fun v => by fin_cases v <;> rfl
  have hS : ∀ x ∈ Set.Icc (fun _ : Fin 1 => (2 : ℝ)) (fun _ => 3), x 0 ≠ 1 := fun x hx h => by
    have := hx.1 0; norm_num [h] at this
  exact C85_client exDyn2_valid (n := 1) (Or.inl rfl) exSplit (0, false)
    (fun x => (2, decide (x 0 < 1))) ![.inl 0, .inr 0]
    (fun y => ![y 0, if y 0 < 1 then -y 0 else y 0 * y 0]) isCompact_Icc 4
    (fun x hx => ⟨_, by rw [e0]; exact exSplit_ends x (hS x hx)⟩)
    (fun x hx => by
      have : ∀ᶠ y : Fin 1 → ℝ in 𝓝 x, y 0 ≠ 1 :=
        (continuous_apply (0 : Fin 1)).continuousAt.eventually_ne (hS x hx)
      exact this.mono fun y hy =>
        ⟨_, by rw [e0]; exact (exSplit_ends y hy).mono fun k a r a' h => h.1.real⟩)

/-- C85: any jet that holds exactly the variable `x` at 3, in the direction `1 / 2`. -/
example : ∃ (K' w₀ B : ℝ), 0 < w₀ ∧ ∀ (α : Type) [CMath α] (w : Prec) (M : FinErr α w), w.rel ≤ w₀ →
    w.abs ≤ w₀ → Set.Icc (-B) B ⊆ w.range → M.fin Arith.half → M.val Arith.half = 1 / 2 → ∀ r : DD α,
      Within exDyn2 (fun s t => M.fin s ∧ |M.val s - t| ≤ 0 * (w.rel + w.abs)) (fun y : Fin 1 → ℝ => y 0)
        (fun _ => 3) r →
      ∃ a, r.eval exDyn2 [Arith.half] = .ok a ∧ M.fin a ∧
        |M.val a - taylorAt 2 (fun y : Fin 1 → ℝ => y 0) (fun _ => 3) fun _ => 1 / 2| ≤
          K' * (w.rel + w.abs) := by
  obtain ⟨K', w₀, B, hw, h⟩ := C85_rate exDyn2_valid 1 0 3
  have e1 : ∀ x : Fin 1 → ℝ, ∀ i, partialD (fun y : Fin 1 → ℝ => y 0) x i = 1 := fun x i => by
    unfold partialD
    rw [show (fun y : Fin 1 → ℝ => y 0) = (ContinuousLinearMap.proj (R := ℝ) (φ := fun _ : Fin 1 => ℝ) 0) from
      rfl, ContinuousLinearMap.fderiv]
    fin_cases i; simp
  refine ⟨K', w₀, B, hw, fun α _ w M h1 h2 h3 h4 h5 r hr => h α w M h1 h2 h3 h4 h5 _ _ _ r [Arith.half]
    ⟨by norm_num, fun i => by rw [e1]; norm_num, fun _ i j => ?_⟩ hr (fun _ => by norm_num [abs_of_pos]) (by simp)
    fun i => ?_⟩
  · simp only [e1]
    unfold partialD
    simp
  · fin_cases i
    simp [h4, h5]

end HJ
