import Verif.Model.Names
import Verif.Spec.Names
import Verif.Props.PyExact
import Verif.Props.PySparse

/-!
# C57: every function name computes the function of that name
-/

namespace HJ

open XReal (cbrtR)

variable {J X : Type}

/-- The member functions compute what they should, at `x`; `R` relates jets and functions. -/
structure MembersOk (order : Nat) (x : X) (R : J → (X → ℝ) → Prop) (M : Members XReal J) : Prop where
  un : ∀ (φ : Fn ℝ) y F, R y F → φ.dom order (F x) →
    ∃ r, M.un (φ.map XReal.num) y = .ok r ∧ R r fun z => φ.den (F z)
  abs : ∀ y F, R y F → F x ≠ 0 → ∃ r, M.abs y = .ok r ∧ R r fun z => |F z|
  atan2 : ∀ y F z G, R y F → R z G → F x ≠ 0 ∨ 0 < G x →
    ∃ r, M.atan2 y z = .ok r ∧ R r fun w => Complex.arg ⟨G w, F w⟩
  hypot : ∀ y F z G, R y F → R z G → F x ≠ 0 ∨ G x ≠ 0 →
    ∃ r, M.hypot y z = .ok r ∧ R r fun w => √(F w ^ 2 + G w ^ 2)
  hypot3 : ∀ y F z G u H, R y F → R z G → R u H → F x ≠ 0 ∨ G x ≠ 0 ∨ H x ≠ 0 →
    ∃ r, M.hypot3 y z u = .ok r ∧ R r fun w => √(F w ^ 2 + G w ^ 2 + H w ^ 2)

theorem CArg.IsAt.num_inv {R : J → (X → ℝ) → Prop} {a : CArg XReal J} {r : ℝ}
    (h : a.IsAt R (.num r)) : a = .num (.num r) := by
  cases a with
  | num s => exact congrArg CArg.num h
  | jet y => exact h.elim

theorem CArg.IsAt.fn_inv {R : J → (X → ℝ) → Prop} {a : CArg XReal J} {F : X → ℝ}
    (h : a.IsAt R (.fn F)) : ∃ y, a = .jet y ∧ R y F := by
  cases a with
  | num s => exact h.elim
  | jet y => exact ⟨y, rfl, h⟩

theorem cbrtR_unique {a b : ℝ} (h : a ^ 3 = b) : a = cbrtR b :=
  (Odd.strictMono_pow (n := 3) ⟨1, rfl⟩).injective (by simp only [h, cbrtR_pow])

/-- Look a name up in one of the tables. -/
local macro "look" h:ident : tactic => `(tactic|
  (rcases $h:ident with ⟨he, hn⟩ | ⟨he, hn, hl⟩ <;> subst he <;>
    first
    | (simp [overload, ddDefs, ddFree, Member.call, Fn.map]; done)
    | (simp [pyNames, cppNames] at hn; done)
    | (simp at hl; done)))

/-- Every name of the specification, looked up in a table. -/
theorem names_exact {order : Nat} {x : X} {R : J → (X → ℝ) → Prop} {M : Members XReal J}
    (hM : MembersOk order x R M) {name : String} {F G : X → ℝ} {args' : List (CMathArg X)}
    (h : NameDen order x name F args' G) {y : J} (hy : R y F) {args : List (CArg XReal J)}
    (ha : List.Forall₂ (CArg.IsAt R) args args') (defs : List (String × Member XReal))
    (hd : (defs = ddDefs ∧ name ∈ pyNames) ∨
      (defs = ddFree ∧ name ∈ cppNames ∧ (name = "log" → args' = []))) :
    ∃ r, overload defs M y name args = some (.ok r) ∧ R r G := by
  have un : ∀ (φ : Fn ℝ), φ.dom order (F x) → (∀ z, φ.den (F z) = G z) →
      (overload defs M y name args = some (M.un (φ.map XReal.num) y)) →
      ∃ r, overload defs M y name args = some (.ok r) ∧ R r G := by
    intro φ h1 h2 h3
    obtain ⟨r, h4, h5⟩ := hM.un φ y F hy h1
    rw [h3, h4]
    rw [show (fun z => φ.den (F z)) = G from funext h2] at h5
    exact ⟨r, rfl, h5⟩
  cases h with
  | sqrt h =>
    cases ha
    apply un .sqrt h fun _ => rfl
    look hd
  | reciprocal h =>
    cases ha
    apply un .reciprocal h (fun _ => (one_div _).symm)
    look hd
  | cos =>
    cases ha
    apply un .cos trivial fun _ => rfl
    look hd
  | sin =>
    cases ha
    apply un .sin trivial fun _ => rfl
    look hd
  | tan h =>
    cases ha
    apply un .tan h fun _ => rfl
    look hd
  | cosh =>
    cases ha
    apply un .cosh trivial fun _ => rfl
    look hd
  | sinh =>
    cases ha
    apply un .sinh trivial fun _ => rfl
    look hd
  | tanh =>
    cases ha
    apply un .tanh trivial fun _ => rfl
    look hd
  | exp =>
    cases ha
    apply un .exp trivial fun _ => rfl
    look hd
  | log h =>
    cases ha
    apply un .log h fun _ => rfl
    look hd
  | log2 h =>
    cases ha
    apply un .log2 h fun _ => rfl
    look hd
  | log10 h =>
    cases ha
    apply un .log10 h fun _ => rfl
    look hd
  | acos hs h =>
    cases ha
    simp only [List.mem_cons, List.not_mem_nil, or_false] at hs
    rcases hs with rfl | rfl <;>
    · apply un .acos h fun _ => rfl
      look hd
  | asin hs h =>
    cases ha
    simp only [List.mem_cons, List.not_mem_nil, or_false] at hs
    rcases hs with rfl | rfl <;>
    · apply un .asin h fun _ => rfl
      look hd
  | atan hs =>
    cases ha
    simp only [List.mem_cons, List.not_mem_nil, or_false] at hs
    rcases hs with rfl | rfl <;>
    · apply un .atan trivial fun _ => rfl
      look hd
  | acosh hs h =>
    cases ha
    simp only [List.mem_cons, List.not_mem_nil, or_false] at hs
    rcases hs with rfl | rfl <;>
    · apply un .acosh h fun _ => rfl
      look hd
  | asinh hs =>
    cases ha
    simp only [List.mem_cons, List.not_mem_nil, or_false] at hs
    rcases hs with rfl | rfl <;>
    · apply un .asinh trivial fun _ => rfl
      look hd
  | atanh hs h =>
    cases ha
    simp only [List.mem_cons, List.not_mem_nil, or_false] at hs
    rcases hs with rfl | rfl <;>
    · apply un .atanh h fun _ => rfl
      look hd
  | cbrt h hR =>
    cases ha
    apply un .cbrt h fun z => (cbrtR_unique (hR z)).symm
    look hd
  | abs hs h =>
    cases ha
    obtain ⟨r, h4, h5⟩ := hM.abs y F hy h
    refine ⟨r, ?_, h5⟩
    rw [← h4]
    simp only [List.mem_cons, List.not_mem_nil, or_false] at hs
    rcases hs with rfl | rfl <;> look hd
  | pow hs h =>
    rename_i b
    obtain ⟨a, ha1, rfl⟩ : ∃ a, CArg.IsAt R a (.num b) ∧ args = [a] := by
      cases ha with | cons h1 h2 => cases h2; exact ⟨_, h1, rfl⟩
    obtain rfl := ha1.num_inv
    simp only [List.mem_cons, List.not_mem_nil, or_false] at hs
    rcases hs with rfl | rfl <;>
    · apply un (.pow b) h fun _ => rfl
      look hd
  | logB h hb =>
    rename_i b
    obtain ⟨a, ha1, rfl⟩ : ∃ a, CArg.IsAt R a (.num b) ∧ args = [a] := by
      cases ha with | cons h1 h2 => cases h2; exact ⟨_, h1, rfl⟩
    obtain rfl := ha1.num_inv
    apply un (.logB b) ⟨h, hb⟩ fun _ => rfl
    look hd
  | atan2 hs h =>
    rename_i G
    obtain ⟨a, ha1, rfl⟩ : ∃ a, CArg.IsAt R a (.fn G) ∧ args = [a] := by
      cases ha with | cons h1 h2 => cases h2; exact ⟨_, h1, rfl⟩
    obtain ⟨z, rfl, hz⟩ := ha1.fn_inv
    obtain ⟨r, h4, h5⟩ := hM.atan2 y F z G hy hz h
    refine ⟨r, ?_, h5⟩
    rw [← h4]
    simp only [List.mem_cons, List.not_mem_nil, or_false] at hs
    rcases hs with rfl | rfl <;> look hd
  | hypot h =>
    rename_i G
    obtain ⟨a, ha1, rfl⟩ : ∃ a, CArg.IsAt R a (.fn G) ∧ args = [a] := by
      cases ha with | cons h1 h2 => cases h2; exact ⟨_, h1, rfl⟩
    obtain ⟨z, rfl, hz⟩ := ha1.fn_inv
    obtain ⟨r, h4, h5⟩ := hM.hypot y F z G hy hz h
    refine ⟨r, ?_, h5⟩
    rw [← h4]
    look hd
  | hypot3 h =>
    rename_i G H
    obtain ⟨a, b, ha1, hb1, rfl⟩ : ∃ a b, CArg.IsAt R a (.fn G) ∧ CArg.IsAt R b (.fn H) ∧
        args = [a, b] := by
      cases ha with | cons h1 h2 => cases h2 with | cons h3 h4 => cases h4; exact ⟨_, _, h1, h3, rfl⟩
    obtain ⟨z, rfl, hz⟩ := ha1.fn_inv
    obtain ⟨w, rfl, hw⟩ := hb1.fn_inv
    obtain ⟨r, h4, h5⟩ := hM.hypot3 y F z G w H hy hz hw h
    refine ⟨r, ?_, h5⟩
    rw [← h4]
    look hd

theorem ddMembers_ok {c : Cfg} {n : Nat} (hv : c.Valid) (hfit : c.tsize = -1 ∨ c.tsize = n)
    (x : Fin n → ℝ) :
    MembersOk c.order x (fun y F => (PVal.jet y).IsAt c n x (.fn F)) (ddMembers c) where
  un φ y F hy hd := by
    obtain ⟨r, h1, h2⟩ := node hv hfit (U := Unit) (.fn φ (.var ())) (fun _ => F) x (fun _ => y)
      (fun _ => hy) ⟨trivial, hd⟩ trivial
    simp only [Expr.map, Expr.evalDD, Res.ok_bind] at h1
    exact ⟨r, h1, h2⟩
  abs y F hy hd := by
    obtain ⟨r, h1, h2⟩ := node hv hfit (U := Unit) (.abs (.var ())) (fun _ => F) x (fun _ => y)
      (fun _ => hy) trivial ⟨trivial, hd⟩
    simp only [Expr.map, Expr.evalDD, Res.ok_bind] at h1
    exact ⟨r, h1, h2⟩
  atan2 y F z G hy hz hd := by
    have hD : Bin.atan2.dom (F x) (G x) := by
      rintro ⟨h5, h6⟩
      rcases hd with h | h
      · exact h h5
      · rw [h6] at h; exact lt_irrefl _ h
    obtain ⟨r, h1, h2⟩ := node hv hfit (U := Bool) (.bin .atan2 (.var true) (.var false))
      (fun b => if b then F else G) x (fun b => if b then y else z)
      (fun b => by cases b; exacts [hz, hy]) ⟨trivial, trivial, hD⟩ ⟨trivial, trivial, hd⟩
    simp only [Expr.map, Expr.evalDD, Res.ok_bind, if_true, Bool.false_eq_true,
      if_false, Bin.run] at h1
    exact ⟨r, h1, h2⟩
  hypot y F z G hy hz hd := by
    have hD : Bin.hypot.dom (F x) (G x) := by
      rintro ⟨h5, h6⟩
      exact hd.elim (fun h => h h5) (fun h => h h6)
    obtain ⟨r, h1, h2⟩ := node hv hfit (U := Bool) (.bin .hypot (.var true) (.var false))
      (fun b => if b then F else G) x (fun b => if b then y else z)
      (fun b => by cases b; exacts [hz, hy]) ⟨trivial, trivial, hD⟩ ⟨trivial, trivial, trivial⟩
    simp only [Expr.map, Expr.evalDD, Res.ok_bind, if_true, Bool.false_eq_true,
      if_false, Bin.run] at h1
    exact ⟨r, h1, h2⟩
  hypot3 y F z G w H hy hz hw hd := by
    have hD : ¬ (F x = 0 ∧ G x = 0 ∧ H x = 0) := by
      rintro ⟨h5, h6, h7⟩
      exact hd.elim (fun h => h h5) fun h => h.elim (fun h => h h6) (fun h => h h7)
    obtain ⟨r, h1, h2⟩ := node hv hfit (U := Fin 3) (.hypot3 (.var 0) (.var 1) (.var 2))
      ![F, G, H] x ![y, z, w] (fun b => by fin_cases b; exacts [hy, hz, hw])
      ⟨trivial, trivial, trivial, hD⟩ ⟨trivial, trivial, trivial⟩
    simp only [Expr.map, Expr.evalDD, Res.ok_bind] at h1
    exact ⟨r, h1, h2⟩

theorem ssMembers_ok {x : String → ℝ} {ord : Order XReal} (ho₀ : ord.Ok) :
    MembersOk 1 x (SIsAt x) (ssMembers ord) where
  un φ y F hy hd := by
    obtain ⟨ord, ho, rfl⟩ := Order.lift ho₀
    obtain ⟨r, h1, h2⟩ := snode ho (U := Unit) (.fn φ (.var ())) (fun _ => F) (fun _ => y)
      (fun _ => hy) ⟨trivial, hd⟩ trivial
    simp only [Expr.map, Expr.evalSS, Res.ok_bind] at h1
    exact ⟨r, h1, h2⟩
  abs y F hy hd := by
    obtain ⟨ord, ho, rfl⟩ := Order.lift ho₀
    obtain ⟨r, h1, h2⟩ := snode ho (U := Unit) (.abs (.var ())) (fun _ => F) (fun _ => y)
      (fun _ => hy) trivial ⟨trivial, hd⟩
    simp only [Expr.map, Expr.evalSS, Res.ok_bind] at h1
    exact ⟨r, h1, h2⟩
  atan2 y F z G hy hz hd := by
    obtain ⟨ord, ho, rfl⟩ := Order.lift ho₀
    have hD : Bin.atan2.dom (F x) (G x) := by
      rintro ⟨h5, h6⟩
      rcases hd with h | h
      · exact h h5
      · rw [h6] at h; exact lt_irrefl _ h
    obtain ⟨r, h1, h2⟩ := snode ho (U := Bool) (.bin .atan2 (.var true) (.var false))
      (fun b => if b then F else G) (fun b => if b then y else z)
      (fun b => by cases b; exacts [hz, hy]) ⟨trivial, trivial, hD⟩ ⟨trivial, trivial, hd⟩
    simp only [Expr.map, Expr.evalSS, Res.ok_bind, if_true, Bool.false_eq_true,
      if_false, Bin.runS] at h1
    exact ⟨r, h1, h2⟩
  hypot y F z G hy hz hd := by
    obtain ⟨ord, ho, rfl⟩ := Order.lift ho₀
    have hD : Bin.hypot.dom (F x) (G x) := by
      rintro ⟨h5, h6⟩
      exact hd.elim (fun h => h h5) (fun h => h h6)
    obtain ⟨r, h1, h2⟩ := snode ho (U := Bool) (.bin .hypot (.var true) (.var false))
      (fun b => if b then F else G) (fun b => if b then y else z)
      (fun b => by cases b; exacts [hz, hy]) ⟨trivial, trivial, hD⟩ ⟨trivial, trivial, trivial⟩
    simp only [Expr.map, Expr.evalSS, Res.ok_bind, if_true, Bool.false_eq_true,
      if_false, Bin.runS] at h1
    exact ⟨r, h1, h2⟩
  hypot3 y F z G w H hy hz hw hd := by
    obtain ⟨ord, ho, rfl⟩ := Order.lift ho₀
    have hD : ¬ (F x = 0 ∧ G x = 0 ∧ H x = 0) := by
      rintro ⟨h5, h6, h7⟩
      exact hd.elim (fun h => h h5) fun h => h.elim (fun h => h h6) (fun h => h h7)
    obtain ⟨r, h1, h2⟩ := snode ho (U := Fin 3) (.hypot3 (.var 0) (.var 1) (.var 2))
      ![F, G, H] ![y, z, w] (fun b => by fin_cases b; exacts [hy, hz, hw])
      ⟨trivial, trivial, trivial, hD⟩ ⟨trivial, trivial, trivial⟩
    simp only [Expr.map, Expr.evalSS, Res.ok_bind] at h1
    exact ⟨r, h1, h2⟩

theorem callMethod_of {defs : List (String × Member XReal)} {M : Members XReal J} {y r : J}
    {name : String} {args : List (CArg XReal J)} (h : overload defs M y name args = some (.ok r)) :
    callMethod defs M y name args = .ok r := by
  unfold callMethod
  rw [if_pos, h]
  · rfl
  · rw [List.any_eq_true]
    unfold overload at h
    obtain ⟨d, hd, _⟩ := List.exists_of_findSome?_eq_some h
    exact ⟨d, (List.mem_filter.1 hd).1, (List.mem_filter.1 hd).2⟩

/-- **C57.** A method called by name on a jet of a dense class, from Python, computes value and
derivatives of the function of that name. -/
theorem C57_dense_python {c : Cfg} {n : Nat} (hv : c.Valid) (hfit : c.tsize = -1 ∨ c.tsize = n)
    (x : Fin n → ℝ) (name : String) (hn : name ∈ pyNames) (F G : (Fin n → ℝ) → ℝ)
    (args' : List (CMathArg (Fin n → ℝ))) (h : NameDen c.order x name F args' G) (y : DD XReal)
    (hy : (PVal.jet y).IsAt c n x (.fn F)) (args : List (CArg XReal (DD XReal)))
    (ha : List.Forall₂ (CArg.IsAt fun y F => (PVal.jet y).IsAt c n x (.fn F)) args args') :
    ∃ r, callMethod ddDefs (ddMembers c) y name args = .ok r ∧ (PVal.jet r).IsAt c n x (.fn G) := by
  obtain ⟨r, h1, h2⟩ := names_exact (ddMembers_ok hv hfit x) h hy ha ddDefs (Or.inl ⟨rfl, hn⟩)
  exact ⟨r, callMethod_of h1, h2⟩

/-- **C57.** The same for the free functions of C++. -/
theorem C57_dense_cpp {c : Cfg} {n : Nat} (hv : c.Valid) (hfit : c.tsize = -1 ∨ c.tsize = n)
    (x : Fin n → ℝ) (name : String) (hn : name ∈ cppNames) (F G : (Fin n → ℝ) → ℝ)
    (args' : List (CMathArg (Fin n → ℝ))) (hl : name = "log" → args' = [])
    (h : NameDen c.order x name F args' G) (y : DD XReal)
    (hy : (PVal.jet y).IsAt c n x (.fn F)) (args : List (CArg XReal (DD XReal)))
    (ha : List.Forall₂ (CArg.IsAt fun y F => (PVal.jet y).IsAt c n x (.fn F)) args args') :
    ∃ r, overload ddFree (ddMembers c) y name args = some (.ok r) ∧
      (PVal.jet r).IsAt c n x (.fn G) :=
  names_exact (ddMembers_ok hv hfit x) h hy ha ddFree (Or.inr ⟨rfl, hn, hl⟩)

/-- **C57.** A method called by name on a sparse jet, from Python, whatever the iteration order of
the maps. -/
theorem C57_sparse_python {x : String → ℝ} {ord : Order XReal} (ho : ord.Ok) (name : String)
    (hn : name ∈ pyNames) (F G : (String → ℝ) → ℝ) (args' : List (CMathArg (String → ℝ)))
    (h : NameDen 1 x name F args' G) (y : SS XReal) (hy : SIsAt x y F)
    (args : List (CArg XReal (SS XReal))) (ha : List.Forall₂ (CArg.IsAt (SIsAt x)) args args') :
    ∃ r, callMethod ssDefs (ssMembers ord) y name args = .ok r ∧ SIsAt x r G := by
  obtain ⟨r, h1, h2⟩ := names_exact (ssMembers_ok ho) h hy ha ssDefs (Or.inl ⟨rfl, hn⟩)
  exact ⟨r, callMethod_of h1, h2⟩

/-- **C57.** The same for the free functions of C++. -/
theorem C57_sparse_cpp {x : String → ℝ} {ord : Order XReal} (ho : ord.Ok) (name : String)
    (hn : name ∈ cppNames) (F G : (String → ℝ) → ℝ) (args' : List (CMathArg (String → ℝ)))
    (hl : name = "log" → args' = []) (h : NameDen 1 x name F args' G) (y : SS XReal)
    (hy : SIsAt x y F) (args : List (CArg XReal (SS XReal)))
    (ha : List.Forall₂ (CArg.IsAt (SIsAt x)) args args') :
    ∃ r, overload ssFree (ssMembers ord) y name args = some (.ok r) ∧ SIsAt x r G :=
  names_exact (ssMembers_ok ho) h hy ha ssFree (Or.inr ⟨rfl, hn, hl⟩)

/-- **C57.** `hj.hypot(a, b)` and `hj.hypot(a, b, c)` are the methods. -/
theorem C57_module {α : Type} [CMath α] (c : Cfg) (y : DD α) (args : List (CArg α (DD α))) :
    callMethod moduleDefs (ddMembers c) y "hypot" args =
      callMethod ddDefs (ddMembers c) y "hypot" args := by
  simp [callMethod, overload, moduleDefs, ddDefs]

/-- **C57.** No other name is bound to a function computing a jet. -/
theorem C57_unbound {α : Type} (M : Members α J) (y : J) (name : String) (hn : name ∉ pyNames)
    (args : List (CArg α J)) : callMethod ddDefs M y name args = .throw .attributeError ∧
      callMethod ssDefs M y name args = .throw .attributeError := by
  simp only [pyNames, List.mem_cons, List.not_mem_nil, or_false, not_or] at hn
  have h : (ddDefs (α := α)).any (fun d => d.1 == name) = false := by
    simp [ddDefs, List.any_cons, beq_eq_false_iff_ne, Ne.symm (a := name), hn]
  exact ⟨by rw [callMethod, h]; rfl, by rw [callMethod, show (ssDefs (α := α)) = ddDefs from rfl, h]; rfl⟩

theorem call_none {α : Type} (M : Members α J) (y : J) (args : List (CArg α J)) :
    (args.map CArg.isJet ≠ [] → (∀ φ, (Member.plain φ).call M y args = none) ∧
      Member.abs.call M y args = none) ∧
    (args.map CArg.isJet ≠ [false] → ∀ φ, (Member.withNum φ).call M y args = none) ∧
    (args.map CArg.isJet ≠ [true] →
      Member.atan2.call M y args = none ∧ Member.hypot.call M y args = none) ∧
    (args.map CArg.isJet ≠ [true, true] → Member.hypot3.call M y args = none) := by
  rcases args with _ | ⟨_ | _, _ | ⟨_ | _, _ | ⟨_ | _, _⟩⟩⟩ <;> simp [Member.call, CArg.isJet]

/-- **C57.** Arguments of other kinds or numbers are refused with `TypeError`: a number in place of a
jet, a jet as exponent or base, too many or too few arguments. -/
theorem C57_refused {α : Type} (M : Members α J) (y : J) (name : String) (hn : name ∈ pyNames)
    (args : List (CArg α J)) (h : args.map CArg.isJet ∉ pyTakes name) :
    callMethod ddDefs M y name args = .throw .typeError ∧
      callMethod ssDefs M y name args = .throw .typeError := by
  have key : callMethod ddDefs M y name args = .throw .typeError := by
    obtain ⟨h1, h2, h3, h4⟩ := call_none M y args
    simp only [pyNames, List.mem_cons, List.not_mem_nil, or_false] at hn
    rcases hn with rfl | rfl | rfl | rfl | rfl | rfl | rfl | rfl | rfl | rfl | rfl | rfl | rfl |
      rfl | rfl | rfl | rfl | rfl | rfl | rfl | rfl | rfl | rfl | rfl | rfl | rfl | rfl | rfl |
      rfl | rfl | rfl <;>
    · simp only [pyTakes, String.reduceEq, if_true, if_false, or_false, or_true, List.mem_cons,
        List.not_mem_nil, not_or] at h
      simp [callMethod, overload, ddDefs, *]
  exact ⟨key, key⟩

/-! ### Concrete cases -/

section samples

/-- The variables of the samples: dense `a = 3`, `b = 2`. -/
theorem exVars_isAt (i : Fin 2) : (PVal.jet (obj exDyn2 2 (varC i (XReal.num (![3, 2] i))))).IsAt
    exDyn2 2 ![3, 2] (.fn fun y => y i) :=
  ⟨varJet i _, (good_var (n := 2) i.isLt _).shows exDyn2_valid.order (Or.inl rfl),
    isJet_var 2 ![3, 2] i⟩

/-- `a.log(2.0)` from Python. -/
example : ∃ r, callMethod ddDefs (ddMembers exDyn2) (obj exDyn2 2 (varC 0 (XReal.num 3))) "log"
      [.num (.num 2)] = .ok r ∧
    (PVal.jet r).IsAt exDyn2 2 ![3, 2] (.fn fun y => Real.log (y 0) / Real.log 2) :=
  C57_dense_python exDyn2_valid (Or.inl rfl) ![3, 2] "log" (by decide) _ _ [.num 2]
    (.logB (by norm_num) (by norm_num)) _ (exVars_isAt 0) _ (.cons rfl .nil)

/-- `np.arctan2(a, b)`, which calls `a.arctan2(b)`. -/
example : ∃ r, callMethod ddDefs (ddMembers exDyn2) (obj exDyn2 2 (varC 0 (XReal.num 3))) "arctan2"
      [.jet (obj exDyn2 2 (varC 1 (XReal.num 2)))] = .ok r ∧
    (PVal.jet r).IsAt exDyn2 2 ![3, 2] (.fn fun y => Complex.arg ⟨y 1, y 0⟩) :=
  C57_dense_python exDyn2_valid (Or.inl rfl) ![3, 2] "arctan2" (by decide) _ _ [.fn fun y => y 1]
    (.atan2 (by simp) (by norm_num)) _ (exVars_isAt 0) _ (.cons (exVars_isAt 1) .nil)

/-- `hypot(a, b, a)` in C++. -/
example : ∃ r, overload ddFree (ddMembers exDyn2) (obj exDyn2 2 (varC 0 (XReal.num 3))) "hypot"
      [.jet (obj exDyn2 2 (varC 1 (XReal.num 2))), .jet (obj exDyn2 2 (varC 0 (XReal.num 3)))] =
        some (.ok r) ∧
    (PVal.jet r).IsAt exDyn2 2 ![3, 2] (.fn fun y => √(y 0 ^ 2 + y 1 ^ 2 + y 0 ^ 2)) :=
  C57_dense_cpp exDyn2_valid (Or.inl rfl) ![3, 2] "hypot" (by decide) _ _
    [.fn fun y => y 1, .fn fun y => y 0] (by simp) (.hypot3 (by norm_num)) _ (exVars_isAt 0) _
    (.cons (exVars_isAt 1) (.cons (exVars_isAt 0) .nil))

/-- `a.arccosh()` on a sparse scalar `a = 3`, with maps iterated backwards. -/
example : ∃ r, callMethod ssDefs (ssMembers exRev) (SS.var exFwd "a" (XReal.num 3)) "arccosh" [] =
      .ok r ∧ SIsAt exPoint r fun y => Real.arcosh (3 + (y "a" - exPoint "a")) :=
  C57_sparse_python exRev_ok "arccosh" (by decide) _ _ [] (.acosh (by simp) (by norm_num)) _
    (isAt_var exFwd_ok "a" 3) _ .nil

/-- `pow(a, -2)` in C++ on a sparse scalar `a = -3`. -/
example : ∃ r, overload ssFree (ssMembers exRev) (SS.var exFwd "a" (XReal.num (-3))) "pow"
      [.num (.num (-2))] = some (.ok r) ∧
    SIsAt exPoint r fun y => (-3 + (y "a" - exPoint "a")) ^ (-2 : ℝ) :=
  C57_sparse_cpp exRev_ok "pow" (by decide) _ _ [.num (-2)] (by simp)
    (.pow (by simp) (Or.inr (Or.inl ⟨by norm_num, -2, by norm_num⟩))) _
    (isAt_var exFwd_ok "a" (-3)) _ (.cons rfl .nil)

/-- `a ** b` with two jets, `a.atan2(1.0)` and `a.sin(1.0)` are refused, `a.expm1()` does not exist. -/
example (y z : DD XReal) :
    callMethod ddDefs (ddMembers exDyn2) y "__pow__" [.jet z] = .throw .typeError ∧
    callMethod ddDefs (ddMembers exDyn2) y "atan2" [.num (.num 1)] = .throw .typeError ∧
    callMethod ddDefs (ddMembers exDyn2) y "sin" [.num (.num 1)] = .throw .typeError ∧
    callMethod ddDefs (ddMembers exDyn2) y "expm1" [] = .throw .attributeError :=
  ⟨(C57_refused _ y "__pow__" (by decide) _ (by simp [pyTakes, CArg.isJet])).1,
    (C57_refused _ y "atan2" (by decide) _ (by simp [pyTakes, CArg.isJet])).1,
    (C57_refused _ y "sin" (by decide) _ (by simp [pyTakes, CArg.isJet])).1,
    (C57_unbound _ y "expm1" (by decide) _).1⟩

end samples

end HJ
