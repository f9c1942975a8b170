import Verif.Spec.Watch
import Verif.Proofs.EvalC
import Verif.Proofs.Sparse
import Verif.Spec.Real

/-!
# Floating-point results without overflow and underflow (helper lemmas)
-/

namespace HJ

variable {p emax : Nat} {V : Type}

theorem agrees_watch {r r' : XReal} {q : Prop} (h : q → r = r') :
    Agrees (⟨toFmt p emax r⟩ : IEEE p emax) (watch r' q) := by
  rintro ⟨hq, hf, hn⟩
  rw [h hq]
  cases r' with
  | num x => exact toFmt_normal hn
  | inf s => exact hf.elim
  | nan => exact hf.elim

theorem Agrees.op1 (F : XReal → XReal) {x : IEEE p emax} {y : Watched p emax} (h : Agrees x y) :
    Agrees (⟨toFmt p emax (F x.val)⟩ : IEEE p emax) (watch (F (.num y.val)) y.quiet) :=
  agrees_watch fun q => by rw [h q]

theorem Agrees.op2 (F : XReal → XReal → XReal) {x x' : IEEE p emax} {y y' : Watched p emax}
    (h : Agrees x y) (h' : Agrees x' y') : Agrees (⟨toFmt p emax (F x.val x'.val)⟩ : IEEE p emax)
      (watch (F (.num y.val) (.num y'.val)) (y.quiet ∧ y'.quiet)) :=
  agrees_watch fun q => by rw [h q.1, h' q.2]

theorem agrees_enc (s : ℝ) : Agrees (IEEE.enc p emax s) (Watched.enc p emax s) :=
  agrees_watch fun _ => rfl

theorem agrees_lit (z : Int) : Agrees (Arith.lit z : IEEE p emax) (Arith.lit z) :=
  agrees_watch fun _ => rfl

section
variable {x x' x'' : IEEE p emax} {y y' y'' : Watched p emax} (h : Agrees x y) (h' : Agrees x' y')
  (h'' : Agrees x'' y'')

include h

theorem Agrees.neg : Agrees (-ₛ x) (-ₛ y) := by
  intro q
  show XReal.neg x.val = _
  rw [h q]
  rfl

theorem Agrees.powN (k : Nat) : Agrees (Arith.powN x k) (Arith.powN y k) :=
  Agrees.op1 (Arith.powN · k) h

theorem Agrees.sqrt : Agrees (CMath.sqrt x) (CMath.sqrt y) := Agrees.op1 CMath.sqrt h
theorem Agrees.cbrt : Agrees (CMath.cbrt x) (CMath.cbrt y) := Agrees.op1 CMath.cbrt h
theorem Agrees.cos : Agrees (CMath.cos x) (CMath.cos y) := Agrees.op1 CMath.cos h
theorem Agrees.sin : Agrees (CMath.sin x) (CMath.sin y) := Agrees.op1 CMath.sin h
theorem Agrees.tan : Agrees (CMath.tan x) (CMath.tan y) := Agrees.op1 CMath.tan h
theorem Agrees.acos : Agrees (CMath.acos x) (CMath.acos y) := Agrees.op1 CMath.acos h
theorem Agrees.asin : Agrees (CMath.asin x) (CMath.asin y) := Agrees.op1 CMath.asin h
theorem Agrees.atan : Agrees (CMath.atan x) (CMath.atan y) := Agrees.op1 CMath.atan h
theorem Agrees.cosh : Agrees (CMath.cosh x) (CMath.cosh y) := Agrees.op1 CMath.cosh h
theorem Agrees.sinh : Agrees (CMath.sinh x) (CMath.sinh y) := Agrees.op1 CMath.sinh h
theorem Agrees.tanh : Agrees (CMath.tanh x) (CMath.tanh y) := Agrees.op1 CMath.tanh h
theorem Agrees.acosh : Agrees (CMath.acosh x) (CMath.acosh y) := Agrees.op1 CMath.acosh h
theorem Agrees.asinh : Agrees (CMath.asinh x) (CMath.asinh y) := Agrees.op1 CMath.asinh h
theorem Agrees.atanh : Agrees (CMath.atanh x) (CMath.atanh y) := Agrees.op1 CMath.atanh h
theorem Agrees.exp : Agrees (CMath.exp x) (CMath.exp y) := Agrees.op1 CMath.exp h
theorem Agrees.log : Agrees (CMath.log x) (CMath.log y) := Agrees.op1 CMath.log h
theorem Agrees.log2 : Agrees (CMath.log2 x) (CMath.log2 y) := Agrees.op1 CMath.log2 h
theorem Agrees.log10 : Agrees (CMath.log10 x) (CMath.log10 y) := Agrees.op1 CMath.log10 h

include h'

theorem Agrees.add : Agrees (x +ₛ x') (y +ₛ y') := Agrees.op2 Arith.add h h'
theorem Agrees.sub : Agrees (x -ₛ x') (y -ₛ y') := Agrees.op2 Arith.sub h h'
theorem Agrees.mul : Agrees (x *ₛ x') (y *ₛ y') := Agrees.op2 Arith.mul h h'
theorem Agrees.div : Agrees (x ÷ₛ x') (y ÷ₛ y') := Agrees.op2 Arith.div h h'
theorem Agrees.pow : Agrees (CMath.pow x x') (CMath.pow y y') := Agrees.op2 CMath.pow h h'
theorem Agrees.atan2 : Agrees (CMath.atan2 x x') (CMath.atan2 y y') := Agrees.op2 CMath.atan2 h h'
theorem Agrees.hypot : Agrees (CMath.hypot x x') (CMath.hypot y y') := Agrees.op2 CMath.hypot h h'

include h''

theorem Agrees.hypot3 : Agrees (CMath.hypot3 x x' x'') (CMath.hypot3 y y' y'') :=
  agrees_watch fun q => by rw [h q.1, h' q.2.1, h'' q.2.2]

end

/-- Go through the operations. -/
macro "agree" : tactic => `(tactic| with_reducible repeat' first
  | assumption
  | exact agrees_enc _
  | exact agrees_lit _
  | refine Agrees.add ?_ ?_ | refine Agrees.sub ?_ ?_ | refine Agrees.mul ?_ ?_
  | refine Agrees.div ?_ ?_ | refine Agrees.neg ?_ | refine Agrees.powN ?_ _
  | refine Agrees.pow ?_ ?_ | refine Agrees.atan2 ?_ ?_ | refine Agrees.hypot ?_ ?_
  | refine Agrees.hypot3 ?_ ?_ ?_
  | refine Agrees.sqrt ?_
  | refine Agrees.cbrt ?_
  | refine Agrees.cos ?_
  | refine Agrees.sin ?_
  | refine Agrees.tan ?_
  | refine Agrees.acos ?_
  | refine Agrees.asin ?_
  | refine Agrees.atan ?_
  | refine Agrees.cosh ?_
  | refine Agrees.sinh ?_
  | refine Agrees.tanh ?_
  | refine Agrees.acosh ?_
  | refine Agrees.asinh ?_
  | refine Agrees.atanh ?_
  | refine Agrees.exp ?_
  | refine Agrees.log ?_
  | refine Agrees.log2 ?_
  | refine Agrees.log10 ?_
  | apply_assumption)

/-- Every component agrees. -/
def AgreesC (a : Nat → IEEE p emax) (b : Nat → Watched p emax) : Prop := ∀ k, Agrees (a k) (b k)

section
variable {c : Cfg} {n : Nat}

theorem AgreesC.fin1 {f : IEEE p emax} {f' : Watched p emax} {t : Nat → IEEE p emax}
    {t' : Nat → Watched p emax} (h : Agrees f f') (ht : ∀ k, Agrees (t k) (t' k)) :
    AgreesC (fin1 f t) (fin1 f' t') := by
  intro k
  unfold HJ.fin1
  split
  · exact h
  · exact ht k

theorem AgreesC.fin2 {f : IEEE p emax} {f' : Watched p emax} {t : Nat → IEEE p emax}
    {t' : Nat → Watched p emax} {s : Nat → Nat → IEEE p emax} {s' : Nat → Nat → Watched p emax}
    (h : Agrees f f') (ht : ∀ k, Agrees (t k) (t' k)) (hs : ∀ i j, Agrees (s i j) (s' i j)) :
    AgreesC (fin2 n f t s) (fin2 n f' t' s') := by
  intro k
  unfold HJ.fin2
  split
  · exact h
  · split
    · exact ht k
    · exact (ht k).add (hs _ _)

theorem AgreesC.uFin {a : Nat → IEEE p emax} {b : Nat → Watched p emax} {f d s : IEEE p emax}
    {f' d' s' : Watched p emax} (h : AgreesC a b) (hf : Agrees f f') (hd : Agrees d d')
    (hs : Agrees s s') : AgreesC (uFin c n a f d s) (uFin c n b f' d' s') := by
  unfold HJ.uFin
  split
  · exact .fin1 hf fun k => hd.mul (h k)
  · exact .fin2 hf (fun k => hd.mul (h k)) fun i j => (hs.mul (h _)).mul (h _)

theorem AgreesC.bFin {q : Bool} {f : IEEE p emax} {f' : Watched p emax} {t : Nat → IEEE p emax}
    {t' : Nat → Watched p emax} {s : Nat → Nat → IEEE p emax} {s' : Nat → Nat → Watched p emax}
    (h : Agrees f f') (ht : ∀ k, Agrees (t k) (t' k)) (hs : ∀ i j, Agrees (s i j) (s' i j)) :
    AgreesC (bFin c n q f t s) (bFin c n q f' t' s') := by
  unfold HJ.bFin
  split
  · exact .fin1 h ht
  · exact .fin2 h ht hs

theorem AgreesC.fn (φ : Fn ℝ) {a : Nat → IEEE p emax} {b : Nat → Watched p emax} (h : AgreesC a b) :
    AgreesC ((φ.map (IEEE.enc p emax)).runC c n a) ((φ.map (Watched.enc p emax)).runC c n b) := by
  have h0 := h 0
  refine .uFin h ?_ ?_ ?_ <;> cases φ <;>
    (show Agrees _ _; simp only
      [Fn.map, Fn.coef, DD.kSqrt, DD.kCbrt, DD.kReciprocal, DD.kCos, DD.kSin, DD.kTan, DD.kAcos,
       DD.kAsin, DD.kAtan, DD.kCosh, DD.kSinh, DD.kTanh, DD.kAcosh, DD.kAsinh, DD.kAtanh, DD.kExp,
       DD.kLog, DD.kLog2, DD.kLog10, DD.kPow, DD.kLogB]) <;>
    agree

theorem AgreesC.bin (o : Bin) {a a' : Nat → IEEE p emax} {b b' : Nat → Watched p emax}
    (h : AgreesC a b) (h' : AgreesC a' b') : AgreesC (o.runC c n a a') (o.runC c n b b') := by
  have h0 := h 0
  have h0' := h' 0
  cases o
  · exact fun k => (h k).add (h' k)
  · intro k
    simp only [Bin.runC, subC]
    split
    · agree
    · exact (h k).add (h' k).neg
  · exact .bFin (h0.mul h0') (fun k => (h0'.mul (h k)).add (h0.mul (h' k)))
      fun i j => ((h' _).mul (h _)).add ((h _).mul (h' _))
  all_goals
    refine .bFin ?_ (fun k => ?_) (fun i j => ?_)
    all_goals
      have hk := fun k => h k
      have hk' := fun k => h' k
      agree

theorem AgreesC.hypot3 {a a' a'' : Nat → IEEE p emax} {b b' b'' : Nat → Watched p emax}
    (h : AgreesC a b) (h' : AgreesC a' b') (h'' : AgreesC a'' b'') :
    AgreesC (hypot3C c n a a' a'') (hypot3C c n b b' b'') := by
  have hk := fun k => h k
  have hk' := fun k => h' k
  have hk'' := fun k => h'' k
  refine .bFin ?_ (fun k => ?_) (fun i j => ?_)
  all_goals
    try simp only [tLin, tQuad]
    agree

theorem AgreesC.sbin (o : SBin) {a : Nat → IEEE p emax} {b : Nat → Watched p emax} (h : AgreesC a b)
    {s : IEEE p emax} {t : Watched p emax} (hs : Agrees s t) :
    AgreesC (o.runC c n a s) (o.runC c n b t) := by
  have hk := fun k => h k
  cases o
  case sDiv => refine .uFin h ?_ ?_ ?_ <;> agree
  all_goals
    intro k
    simp only [SBin.runC, addSC, sSubC]
    try split
    all_goals agree

end

/-! ## Expressions -/

section
variable {c : Cfg} {n : Nat}

theorem Agrees.ltB {x : IEEE p emax} {y : Watched p emax} (h : Agrees x y) (q : y.quiet)
    (hz : toFmt p emax (.num 0) = .num 0) :
    Cmp.ltB x (Arith.lit 0) = Cmp.ltB y (Arith.lit 0) := by
  classical
  have e : (Arith.lit 0 : IEEE p emax).val = .num 0 := by
    show toFmt p emax (.num ((0 : Int) : ℝ)) = _
    rw [Int.cast_zero, hz]
  have e' : (Arith.lit 0 : Watched p emax).val = 0 := by
    show rndEven p ((0 : Int) : ℝ) = _
    simp [rndEven, roundEven_zero]
  show Cmp.ltB x.val (Arith.lit 0 : IEEE p emax).val = decide
    (y.val < (Arith.lit 0 : Watched p emax).val)
  rw [h q, e, e']
  show decide (y.val < 0) = _
  congr

theorem toFmt_zero : toFmt p emax (.num 0) = .num 0 := by
  rw [toFmt_normal (Or.inl rfl)]
  simp [rndEven, roundEven_zero]

theorem evalC_agrees {ρ : V → Nat → IEEE p emax} {σ : V → Nat → Watched p emax}
    (h : ∀ v, AgreesC (ρ v) (σ v)) (e : Expr ℝ V)
    (hq : e.NoAbs ∨ ((e.map (Watched.enc p emax)).evalC c n σ 0).quiet) :
    AgreesC ((e.map (IEEE.enc p emax)).evalC c n ρ) ((e.map (Watched.enc p emax)).evalC c n σ) := by
  induction e with
  | var v => exact h v
  | const s =>
    intro k
    simp only [Expr.map, Expr.evalC, constC]
    split <;> agree
  | neg e ih => exact fun k => (ih hq k).neg
  | abs e ih =>
    have hq : ((e.map (Watched.enc p emax)).evalC c n σ 0).quiet := by
      rcases hq with hq | hq
      · exact hq.elim
      · simp only [Expr.map, Expr.evalC, absC] at hq
        split at hq <;> exact hq
    have := ih (Or.inr hq)
    intro k
    simp only [Expr.map, Expr.evalC, absC]
    rw [(this 0).ltB hq toFmt_zero]
    split
    · exact (this k).neg
    · exact this k
  | fn φ e ih =>
    refine .fn φ (ih (hq.imp_right fun hq => ?_))
    simp only [Expr.map, Expr.evalC, Fn.runC, uFin_zero] at hq
    cases φ
    case logB => exact hq.1.1.1
    case pow => exact hq.1.1
    case reciprocal => exact hq.1.2
    all_goals exact hq.1
  | bin o e₁ e₂ ih₁ ih₂ =>
    have : (e₁.NoAbs ∨ ((e₁.map (Watched.enc p emax)).evalC c n σ 0).quiet) ∧
        (e₂.NoAbs ∨ ((e₂.map (Watched.enc p emax)).evalC c n σ 0).quiet) := by
      rcases hq with hq | hq
      · exact ⟨Or.inl hq.1, Or.inl hq.2⟩
      · simp only [Expr.map, Expr.evalC] at hq
        cases o
        case div =>
          simp only [Bin.runC, divC, bFin_zero] at hq
          exact ⟨Or.inr hq.1.1, Or.inr hq.1.2.1.2⟩
        all_goals
          simp only [Bin.runC, addC, subC, if_true, mulC, atan2C, hypotC, bin5, bFin_zero] at hq
          exact ⟨Or.inr hq.1.1, Or.inr hq.1.2⟩
    exact .bin o (ih₁ this.1) (ih₂ this.2)
  | sbin o e s ih =>
    refine .sbin o (ih (hq.imp_right fun hq => ?_)) (agrees_enc s)
    simp only [Expr.map, Expr.evalC] at hq
    cases o
    case sDiv =>
      simp only [SBin.runC, uFin_zero] at hq
      exact hq.1.2
    all_goals
      simp only [SBin.runC, addSC, sSubC, if_true] at hq
      exact hq.1.1
  | hypot3 e₁ e₂ e₃ ih₁ ih₂ ih₃ =>
    have : (e₁.NoAbs ∨ ((e₁.map (Watched.enc p emax)).evalC c n σ 0).quiet) ∧
        (e₂.NoAbs ∨ ((e₂.map (Watched.enc p emax)).evalC c n σ 0).quiet) ∧
        (e₃.NoAbs ∨ ((e₃.map (Watched.enc p emax)).evalC c n σ 0).quiet) := by
      rcases hq with hq | hq
      · exact ⟨Or.inl hq.1, Or.inl hq.2.1, Or.inl hq.2.2⟩
      · simp only [Expr.map, Expr.evalC, hypot3C, bFin_zero] at hq
        exact ⟨Or.inr hq.1.1, Or.inr hq.1.2.1, Or.inr hq.1.2.2⟩
    exact .hypot3 (ih₁ this.1) (ih₂ this.2.1) (ih₃ this.2.2)

end

/-! ## Sparse -/

/-- Values agree, the same names have entries, and these agree. -/
def AgreesV (a : SVal (IEEE p emax)) (b : SVal (Watched p emax)) : Prop :=
  Agrees a.1 b.1 ∧ ∀ k, Option.Rel Agrees (a.2 k) (b.2 k)

theorem rel_map2 {α β α' β' : Type} {R : α → β → Prop} {R' : α' → β' → Prop} {f : α → α'}
    {g : β → β'} {a : Option α} {b : Option β} (h : Option.Rel R a b)
    (hf : ∀ x y, R x y → R' (f x) (g y)) : Option.Rel R' (a.map f) (b.map g) := by
  cases h with
  | some h => exact .some (hf _ _ h)
  | none => exact .none

open SMap in
theorem rel_step {f : IEEE p emax → IEEE p emax → IEEE p emax}
    {g : Watched p emax → Watched p emax → Watched p emax} {a a' : Option (IEEE p emax)}
    {b b' : Option (Watched p emax)} (h : Option.Rel Agrees a b) (h' : Option.Rel Agrees a' b')
    (hf : ∀ x y z w, Agrees x y → Agrees z w → Agrees (f x z) (g y w)) :
    Option.Rel Agrees (step f a a') (step g b b') := by
  cases h' with
  | none => exact h
  | some h' =>
    refine .some (hf _ _ _ _ h' ?_)
    cases h with
    | none => exact agrees_lit 0
    | some h => exact h

theorem AgreesV.un {x : SVal (IEEE p emax)} {y : SVal (Watched p emax)} (h : AgreesV x y)
    {f d : IEEE p emax} {f' d' : Watched p emax} (hf : Agrees f f') (hd : Agrees d d') :
    AgreesV (x.un f d) (y.un f' d') :=
  ⟨hf, fun k => rel_map2 (h.2 k) fun _ _ h => h.mul hd⟩

theorem AgreesV.bin' {x x' : SVal (IEEE p emax)} {y y' : SVal (Watched p emax)} (h : AgreesV x y)
    (h' : AgreesV x' y') {f d e : IEEE p emax} {f' d' e' : Watched p emax} (hf : Agrees f f')
    (hd : Agrees d d') (he : Agrees e e') : AgreesV (x.bin x' f d e) (y.bin y' f' d' e') :=
  ⟨hf, fun k => rel_step (rel_map2 (h.2 k) fun _ _ h => h.mul hd) (h'.2 k)
    fun _ _ _ _ h h' => h'.add (he.mul h)⟩

theorem AgreesV.tern {x x' x'' : SVal (IEEE p emax)} {y y' y'' : SVal (Watched p emax)}
    (h : AgreesV x y) (h' : AgreesV x' y') (h'' : AgreesV x'' y'') {f d e g : IEEE p emax}
    {f' d' e' g' : Watched p emax} (hf : Agrees f f') (hd : Agrees d d') (he : Agrees e e')
    (hg : Agrees g g') : AgreesV (x.tern x' x'' f d e g) (y.tern y' y'' f' d' e' g') :=
  ⟨hf, fun k => rel_step (rel_step (rel_map2 (h.2 k) fun _ _ h => h.mul hd) (h'.2 k)
    fun _ _ _ _ h h' => h'.add (he.mul h)) (h''.2 k) fun _ _ _ _ h h' => h'.add (hg.mul h)⟩

theorem AgreesV.neg {x : SVal (IEEE p emax)} {y : SVal (Watched p emax)} (h : AgreesV x y) :
    AgreesV x.neg y.neg :=
  ⟨h.1.neg, fun k => rel_map2 (h.2 k) fun _ _ h => h.neg⟩

theorem evalV_agrees {ρ : V → SVal (IEEE p emax)} {σ : V → SVal (Watched p emax)}
    (h : ∀ v, AgreesV (ρ v) (σ v)) (e : Expr ℝ V)
    (hq : e.NoAbs ∨ ((e.map (Watched.enc p emax)).evalV σ).1.quiet) :
    AgreesV ((e.map (IEEE.enc p emax)).evalV ρ) ((e.map (Watched.enc p emax)).evalV σ) := by
  induction e with
  | var v => exact h v
  | const s => exact ⟨agrees_enc s, fun _ => .none⟩
  | neg e ih => exact (ih hq).neg
  | abs e ih =>
    have hq : ((e.map (Watched.enc p emax)).evalV σ).1.quiet := by
      rcases hq with hq | hq
      · exact hq.elim
      · simp only [Expr.map, Expr.evalV] at hq
        split at hq <;> exact hq
    have := ih (Or.inr hq)
    simp only [Expr.map, Expr.evalV]
    rw [this.1.ltB hq toFmt_zero]
    split
    · exact this.neg
    · exact this
  | fn φ e ih =>
    have := ih (hq.imp_right fun hq => by
      simp only [Expr.map, Expr.evalV, SVal.un] at hq
      cases φ
      case logB => exact hq.1.1.1
      case pow => exact hq.1.1
      case reciprocal => exact hq.1.2
      all_goals exact hq.1)
    have h0 := this.1
    refine this.un ?_ ?_ <;> cases φ <;> simp only
      [Fn.map, Fn.coefS, SS.kSqrt, SS.kCbrt, SS.kReciprocal, SS.kCos, SS.kSin, SS.kTan, SS.kAcos,
       SS.kAsin, SS.kAtan, SS.kCosh, SS.kSinh, SS.kTanh, SS.kAcosh, SS.kAsinh, SS.kAtanh, SS.kExp,
       SS.kLog, SS.kLog2, SS.kLog10, SS.kPow, SS.kLogB] <;> agree
  | bin o e₁ e₂ ih₁ ih₂ =>
    have : (e₁.NoAbs ∨ ((e₁.map (Watched.enc p emax)).evalV σ).1.quiet) ∧
        (e₂.NoAbs ∨ ((e₂.map (Watched.enc p emax)).evalV σ).1.quiet) := by
      rcases hq with hq | hq
      · exact ⟨Or.inl hq.1, Or.inl hq.2⟩
      · simp only [Expr.map, Expr.evalV] at hq
        cases o
        case div => exact ⟨Or.inr hq.1.1, Or.inr hq.1.2.1.2⟩
        all_goals exact ⟨Or.inr hq.1.1, Or.inr hq.1.2⟩
    have h₁ := ih₁ this.1
    have h₂ := ih₂ this.2
    have h₁' := h₁.1
    have h₂' := h₂.1
    cases o <;> refine h₁.bin' h₂ ?_ ?_ ?_ <;> agree
  | sbin o e s ih =>
    have := ih (hq.imp_right fun hq => by
      simp only [Expr.map, Expr.evalV] at hq
      cases o
      case sDiv => exact hq.1.2
      all_goals exact hq.1.1)
    have h0 := this.1
    have hs := agrees_enc (p := p) (emax := emax) s
    cases o
    case addS => exact ⟨h0.add hs, this.2⟩
    case sAdd => exact ⟨h0.add hs, this.2⟩
    case subS => exact ⟨h0.add hs.neg, this.2⟩
    case sSub => exact ⟨h0.neg.add hs, this.neg.2⟩
    all_goals refine this.un ?_ ?_ <;> agree
  | hypot3 e₁ e₂ e₃ ih₁ ih₂ ih₃ =>
    have : (e₁.NoAbs ∨ ((e₁.map (Watched.enc p emax)).evalV σ).1.quiet) ∧
        (e₂.NoAbs ∨ ((e₂.map (Watched.enc p emax)).evalV σ).1.quiet) ∧
        (e₃.NoAbs ∨ ((e₃.map (Watched.enc p emax)).evalV σ).1.quiet) := by
      rcases hq with hq | hq
      · exact ⟨Or.inl hq.1, Or.inl hq.2.1, Or.inl hq.2.2⟩
      · exact ⟨Or.inr hq.1.1, Or.inr hq.1.2.1, Or.inr hq.1.2.2⟩
    have h₁ := ih₁ this.1
    have h₂ := ih₂ this.2.1
    have h₃ := ih₃ this.2.2
    have h₁' := h₁.1
    have h₂' := h₂.1
    have h₃' := h₃.1
    refine h₁.tern h₂ h₃ ?_ ?_ ?_ ?_ <;> agree

end HJ
