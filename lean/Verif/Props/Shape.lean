import Verif.Props.Construct
import Verif.Proofs.XRealBasic

/-!
# C01, C15, C19, C28, C29, C32, C33, C49: shape, safety, agreement of the variants, comparisons
-/

namespace HJ

variable {α V : Type}

/-! ## C01, C19 -/

theorem wf_env {c : Cfg} (hv : c.Valid) {n : Nat} {ρ : V → DD α} (h : ∀ v, WF c n (ρ v)) :
    ∃ a : V → Nat → α, ρ = fun v => obj c n (a v) := by
  have := fun v => ((h v).eq_obj hv.order).2
  choose a ha using this
  exact ⟨a, funext ha⟩

/-- **C19.** Evaluating any expression on well-formed jets of `n` variables succeeds and gives a
well-formed jet of `n` variables: no out-of-bounds access, no uninitialised read, no exception,
no failed assertion, for any scalar arithmetic and in every build mode. -/
theorem C19_no_undefined_behaviour [CMath α] {c : Cfg} (hv : c.Valid) {n : Nat}
    (hf : c.tsize = -1 ∨ c.tsize = n) {ρ : V → DD α} (hρ : ∀ v, WF c n (ρ v)) (e : Expr α V) :
    ∃ r, e.evalDD c n ρ = .ok r ∧ WF c n r := by
  obtain ⟨a, rfl⟩ := wf_env hv hρ
  exact ⟨_, evalDD_obj hv.order hf a e, wf_obj hv.order hf _⟩

/-- **C01**, factories: `zero`, `constant`, `variable`, `variables` and `create` give well-formed
jets, that is `size() = n`, the right number of scalars, all of them initialised. -/
theorem C01_factories [Arith α] {c : Cfg} (hv : c.Valid) {n : Nat}
    (hf : c.tsize = -1 ∨ c.tsize = n) :
    (∃ x : DD α, DD.zero c n = .ok x ∧ WF c n x) ∧
    (∀ v : α, ∃ x, DD.constant c v n = .ok x ∧ WF c n x) ∧
    (∀ (v : α) (i : Nat), i < n → ∃ x, DD.var c i v n = .ok x ∧ WF c n x) ∧
    (∀ vals : List α, vals.length = n → ∃ xs, DD.variables c vals = .ok xs ∧ xs.length = n ∧
      ∀ x ∈ xs, WF c n x) ∧
    (c.exc = true → ∀ data : List α, data.length = storedLen c.order n →
      ∃ x, DD.create c (data.map some) = .ok x ∧ WF c n x) := by
  refine ⟨?_, ?_, ?_, ?_, ?_⟩
  · exact ⟨_, zero_obj hf, wf_obj hv.order hf _⟩
  · intro v; exact ⟨_, constant_obj hf v, wf_obj hv.order hf _⟩
  · intro v i hi; exact ⟨_, var_obj hf hi v, wf_obj hv.order hf _⟩
  · rintro vals rfl
    refine ⟨_, variables_obj hf, by simp, ?_⟩
    intro x hx
    simp only [List.mem_map] at hx
    obtain ⟨p, _, rfl⟩ := hx
    exact wf_obj hv.order hf _
  · intro he data hl
    have hl' : (data.map some).length = storedLen c.order n := by simpa using hl
    by_cases hd : c.tsize = -1
    · obtain ⟨x, h1, h2, h3⟩ := (C05_create_dynamic hv he hd (data.map some)).1 n hl'
      refine ⟨x, h1, hf, ?_, by rw [h3, hl'], ?_⟩
      · rw [if_pos hd, ← h2]
        simp [DD.size, (isDynamic_iff c).2 hd]
      · rw [h3]; simp
    · have hN : c.tsize = n := by tauto
      obtain ⟨x, h1, h2, h3⟩ := (C05_create_static hv he hN (data.map some)).1 hl'
      refine ⟨x, h1, hf, ?_, by rw [h3, hl'], ?_⟩
      · rw [if_neg hd]
        have hdyn : c.isDynamic = false := by simp [Cfg.isDynamic, hd]
        unfold DD.create at h1
        simp only [hdyn, Bool.false_eq_true, if_false] at h1
        obtain ⟨s, _, h1⟩ := Res.bind_eq_ok.1 h1
        obtain ⟨_, _, h1⟩ := Res.bind_eq_ok.1 h1
        simp only [Res.ok.injEq] at h1
        rw [← h1]
      · rw [h3]; simp

/-- **C01**, operation sequences: whatever an expression over well-formed jets returns is
well-formed: it reports size `n` and stores exactly the components, all initialised. -/
theorem C01_expressions [CMath α] {c : Cfg} (hv : c.Valid) {n : Nat}
    (hf : c.tsize = -1 ∨ c.tsize = n) {ρ : V → DD α} (hρ : ∀ v, WF c n (ρ v)) (e : Expr α V)
    {r : DD α} (hr : e.evalDD c n ρ = .ok r) :
    r.size c = n ∧ r.mData.length = (if c.order = 1 then 1 + n else (n + 1) * (n + 2) / 2) ∧
      ∀ k : Nat, k < r.mData.length → ∃ v, rd r.mData k = .ok v := by
  obtain ⟨r', h1, h2⟩ := C19_no_undefined_behaviour hv hf hρ e
  rw [hr] at h1
  cases h1
  obtain ⟨J, hJ⟩ := h2.shows hv.order
  refine ⟨hJ.size, h2.len, ?_⟩
  intro k hk
  obtain ⟨_, a, rfl⟩ := h2.eq_obj hv.order
  exact ⟨a k, rd_obj k rfl (by simpa [obj] using hk)⟩

/-- A second-order jet of 2 variables with finite, infinite and NaN components. -/
noncomputable def exX : DD XReal :=
  ⟨2, [some (XReal.num 3), some (XReal.num 1), some (XReal.num 0), some (XReal.inf true),
    some XReal.nan, some (XReal.num 0)]⟩
/-- The first-order jet with the same value and gradient. -/
noncomputable def exX1 : DD XReal := ⟨2, [some (XReal.num 3), some (XReal.num 1), some (XReal.num 0)]⟩
/-- The same data in the static type. -/
noncomputable def exXS : DD XReal := { exX with mSize := 0 }

theorem exX_wf : WF exDyn2 2 exX := ⟨Or.inl rfl, rfl, rfl, by simp [exX]⟩
theorem exX1_wf : WF exDyn1 2 exX1 := ⟨Or.inl rfl, rfl, rfl, by simp [exX1]⟩
theorem exXS_wf : WF exSta2 2 exXS := ⟨Or.inr rfl, rfl, rfl, by simp [exXS, exX]⟩

/-- `sin(a) * a + hypot(a, 2.0 / a, a)`. -/
noncomputable def exXExpr : Expr XReal Unit :=
  .bin .add (.bin .mul (.fn .sin (.var ())) (.var ()))
    (.hypot3 (.var ()) (.sbin .sDiv (.var ()) (XReal.num 2)) (.var ()))

example : ∃ r, exXExpr.evalDD exDyn2 2 (fun _ => exX) = .ok r ∧ WF exDyn2 2 r :=
  C19_no_undefined_behaviour exDyn2_valid (Or.inl rfl) (fun _ => exX_wf) exXExpr

example : ∃ r, exXExpr.evalDD exDyn2 2 (fun _ => exX) = .ok r ∧ r.mData.length = 6 := by
  obtain ⟨r, h, _⟩ := C19_no_undefined_behaviour exDyn2_valid (Or.inl rfl) (fun _ => exX_wf) exXExpr
  exact ⟨r, h, (C01_expressions exDyn2_valid (Or.inl rfl) (fun _ => exX_wf) exXExpr h).2.1⟩

example : ∃ x : DD ℚ, DD.var exSta2 1 5 2 = .ok x ∧ WF exSta2 2 x :=
  (C01_factories exSta2_valid (n := 2) (Or.inr rfl)).2.2.1 5 1 (by decide)

/-! ## C28, C29 -/

theorem uFin_low [Arith α] (c c' : Cfg) {n k : Nat} (hk : k ≤ n) {a a' : Nat → α}
    (ha : a k = a' k) (f da daa : α) : uFin c n a f da daa k = uFin c' n a' f da daa k := by
  cases k with
  | zero => rw [uFin_zero, uFin_zero]
  | succ i =>
    rw [show i + 1 = 1 + i by omega] at ha ⊢
    rw [uFin_succ _ _ _ _ (by omega), uFin_succ _ _ _ _ (by omega), ha]

theorem bFin_low [Arith α] (c c' : Cfg) {n k : Nat} (hk : k ≤ n) (q q' : Bool) (f : α)
    {t1 t1' : Nat → α} (t2 t2' : Nat → Nat → α) (h : t1 k = t1' k) :
    bFin c n q f t1 t2 k = bFin c' n q' f t1' t2' k := by
  cases k with
  | zero => rw [bFin_zero, bFin_zero]
  | succ i =>
    rw [show i + 1 = 1 + i by omega] at h ⊢
    rw [bFin_succ _ _ _ _ (by omega), bFin_succ _ _ _ _ (by omega), h]

/-- Value and gradient cells do not depend on the order. -/
theorem evalC_low [CMath α] (c c' : Cfg) {n : Nat} {ρ ρ' : V → Nat → α}
    (hρ : ∀ v, ∀ k ≤ n, ρ v k = ρ' v k) (e : Expr α V) :
    ∀ k ≤ n, e.evalC c n ρ k = e.evalC c' n ρ' k := by
  induction e with
  | var v => exact hρ v
  | const s => intro k _; rfl
  | neg e ih => intro k hk; simp only [Expr.evalC, ih k hk]
  | abs e ih => intro k hk; simp only [Expr.evalC, absC, ih k hk, ih 0 (Nat.zero_le _)]
  | fn φ e ih =>
    intro k hk
    simp only [Expr.evalC, Fn.runC, ih 0 (Nat.zero_le _)]
    exact uFin_low c c' hk (ih k hk) _ _ _
  | bin o e₁ e₂ ih₁ ih₂ =>
    intro k hk
    have h1 := ih₁ k hk
    have h2 := ih₂ k hk
    have h10 := ih₁ 0 (Nat.zero_le _)
    have h20 := ih₂ 0 (Nat.zero_le _)
    cases o
    · simp only [Expr.evalC, Bin.runC, addC, h1, h2]
    · simp only [Expr.evalC, Bin.runC, subC, h1, h2, h10, h20]
    · simp only [Expr.evalC, Bin.runC, mulC, h10, h20]
      exact bFin_low c c' hk _ _ _ _ _ (by simp only [h1, h2])
    · simp only [Expr.evalC, Bin.runC, divC, h10, h20]
      exact bFin_low c c' hk _ _ _ _ _ (by simp only [h1, h2])
    · simp only [Expr.evalC, Bin.runC, atan2C, bin5, h10, h20]
      exact bFin_low c c' hk _ _ _ _ _ (by simp only [h1, h2])
    · simp only [Expr.evalC, Bin.runC, hypotC, bin5, h10, h20]
      exact bFin_low c c' hk _ _ _ _ _ (by simp only [h1, h2])
  | sbin o e s ih =>
    intro k hk
    have h := ih k hk
    have h0 := ih 0 (Nat.zero_le _)
    cases o <;> simp only [Expr.evalC, SBin.runC, addSC, sSubC, h, h0]
    exact uFin_low c c' hk h _ _ _
  | hypot3 e₁ e₂ e₃ ih₁ ih₂ ih₃ =>
    intro k hk
    simp only [Expr.evalC, hypot3C, ih₁ 0 (Nat.zero_le _), ih₂ 0 (Nat.zero_le _),
      ih₃ 0 (Nat.zero_le _)]
    exact bFin_low c c' hk _ _ _ _ _ (by simp only [tLin, ih₁ k hk, ih₂ k hk, ih₃ k hk])

/-- **C28.** The same expression evaluated with two types of any orders (first and second, first
static and second dynamic, ...) on operands with the same values and gradients gives results with
the same value and gradient, for any scalar arithmetic. -/
theorem C28_orders_agree [CMath α] {c₁ c₂ : Cfg} (hv₁ : c₁.Valid) (hv₂ : c₂.Valid) {n : Nat}
    (hf₁ : c₁.tsize = -1 ∨ c₁.tsize = n) (hf₂ : c₂.tsize = -1 ∨ c₂.tsize = n)
    {ρ₁ ρ₂ : V → DD α} {J₁ J₂ : V → Jet α} (h₁ : ∀ v, Shows c₁ n (ρ₁ v) (J₁ v))
    (h₂ : ∀ v, Shows c₂ n (ρ₂ v) (J₂ v)) (hf : ∀ v, (J₁ v).f = (J₂ v).f)
    (hg : ∀ v, ∀ i < n, (J₁ v).g i = (J₂ v).g i) (e : Expr α V) :
    ∃ r₁ r₂ K₁ K₂, e.evalDD c₁ n ρ₁ = .ok r₁ ∧ e.evalDD c₂ n ρ₂ = .ok r₂ ∧
      Shows c₁ n r₁ K₁ ∧ Shows c₂ n r₂ K₂ ∧ K₁.f = K₂.f ∧ ∀ i < n, K₁.g i = K₂.g i := by
  obtain ⟨a₁, rfl⟩ := wf_env hv₁ fun v => (h₁ v).wf
  obtain ⟨a₂, rfl⟩ := wf_env hv₂ fun v => (h₂ v).wf
  have hlow : ∀ v, ∀ k ≤ n, a₁ v k = a₂ v k := by
    intro v k hk
    have u₁ := (h₁ v).unique (shows_obj hv₁.order hf₁ (a₁ v))
    have u₂ := (h₂ v).unique (shows_obj hv₂.order hf₂ (a₂ v))
    cases k with
    | zero =>
      have e1 : (J₁ v).f = a₁ v 0 := u₁.1
      have e2 : (J₂ v).f = a₂ v 0 := u₂.1
      rw [← e1, ← e2, hf v]
    | succ i =>
      have e1 : (J₁ v).g i = a₁ v (1 + i) := u₁.2.1 i (by omega)
      have e2 : (J₂ v).g i = a₂ v (1 + i) := u₂.2.1 i (by omega)
      rw [show i + 1 = 1 + i by omega, ← e1, ← e2, hg v i (by omega)]
  have hev := evalC_low c₁ c₂ hlow e
  refine ⟨_, _, _, _, evalDD_obj hv₁.order hf₁ a₁ e, evalDD_obj hv₂.order hf₂ a₂ e,
    shows_obj hv₁.order hf₁ _, shows_obj hv₂.order hf₂ _, hev 0 (Nat.zero_le _), ?_⟩
  intro i hi
  exact hev (1 + i) (by omega)

theorem evalC_order [CMath α] {c c' : Cfg} (h : c.order = c'.order) (n : Nat)
    (ρ : V → Nat → α) (e : Expr α V) : e.evalC c n ρ = e.evalC c' n ρ := by
  have hu : ∀ (a : Nat → α) f da daa, uFin c n a f da daa = uFin c' n a f da daa := by
    intro a f da daa; unfold uFin; rw [h]
  have hb : ∀ q (f : α) t1 t2, bFin c n q f t1 t2 = bFin c' n q f t1 t2 := by
    intro q f t1 t2; unfold bFin; rw [h]
  induction e with
  | var v => rfl
  | const s => rfl
  | neg e ih => simp only [Expr.evalC, ih]
  | abs e ih => simp only [Expr.evalC, ih]
  | fn φ e ih => simp only [Expr.evalC, ih, Fn.runC, hu]
  | bin o e₁ e₂ ih₁ ih₂ =>
    cases o <;>
      simp only [Expr.evalC, ih₁, ih₂, Bin.runC, mulC, divC, atan2C, hypotC, bin5, hb]
  | sbin o e s ih => cases o <;> simp only [Expr.evalC, ih, SBin.runC, hu]
  | hypot3 e₁ e₂ e₃ ih₁ ih₂ ih₃ => simp only [Expr.evalC, ih₁, ih₂, ih₃, hypot3C, hb]

/-- **C29.** The same expression evaluated with two types of the same order (static and dynamic,
or different build modes) on operands with the same data gives the same data, for any scalar
arithmetic. -/
theorem C29_static_dynamic_agree [CMath α] {c₁ c₂ : Cfg} (hv₁ : c₁.Valid) (hv₂ : c₂.Valid)
    (ho : c₁.order = c₂.order) {n : Nat} (hf₁ : c₁.tsize = -1 ∨ c₁.tsize = n)
    (hf₂ : c₂.tsize = -1 ∨ c₂.tsize = n) {ρ₁ ρ₂ : V → DD α} (h₁ : ∀ v, WF c₁ n (ρ₁ v))
    (h₂ : ∀ v, WF c₂ n (ρ₂ v)) (hd : ∀ v, (ρ₁ v).mData = (ρ₂ v).mData) (e : Expr α V) :
    ∃ r₁ r₂, e.evalDD c₁ n ρ₁ = .ok r₁ ∧ e.evalDD c₂ n ρ₂ = .ok r₂ ∧ r₁.mData = r₂.mData := by
  obtain ⟨a₁, rfl⟩ := wf_env hv₁ h₁
  obtain ⟨a₂, rfl⟩ := wf_env hv₂ h₂
  have hdl : dlen c₁ n = dlen c₂ n := by unfold dlen; rw [ho]
  have hag : ∀ v, obj c₂ n (a₁ v) = obj c₂ n (a₂ v) := by
    intro v
    have := hd v
    simp only [data_obj, hdl] at this
    simp only [obj, this]
  have hρ : (fun v => obj c₂ n (a₂ v)) = fun v => obj c₂ n (a₁ v) := funext fun v => (hag v).symm
  rw [hρ]
  refine ⟨_, _, evalDD_obj hv₁.order hf₁ a₁ e, evalDD_obj hv₂.order hf₂ a₁ e, ?_⟩
  rw [evalC_order ho]
  simp only [data_obj, hdl]

/-- First- and second-order type on the same value and gradient. -/
example : ∃ r₁ r₂ v, exXExpr.evalDD exDyn1 2 (fun _ => exX1) = .ok r₁ ∧
    exXExpr.evalDD exDyn2 2 (fun _ => exX) = .ok r₂ ∧ r₁.g exDyn1 1 = .ok v ∧
    r₂.g exDyn2 1 = .ok v := by
  obtain ⟨r₁, r₂, K₁, K₂, e1, e2, s1, s2, _, hg⟩ := C28_orders_agree exDyn1_valid exDyn2_valid
    (n := 2) (Or.inl rfl) (Or.inl rfl) (V := Unit) (ρ₁ := fun _ => exX1) (ρ₂ := fun _ => exX)
    (J₁ := fun _ => ⟨XReal.num 3, fun i => if i = 0 then XReal.num 1 else XReal.num 0,
      fun _ _ => XReal.nan⟩)
    (J₂ := fun _ => ⟨XReal.num 3, fun i => if i = 0 then XReal.num 1 else XReal.num 0,
      fun i j => if i = 0 ∧ j = 0 then XReal.inf true else if i = 1 ∧ j = 1 then XReal.num 0
        else XReal.nan⟩)
    (fun _ => ⟨exX1_wf, rfl, rfl, by intro i hi; interval_cases i <;> rfl, by intro h; cases h⟩)
    (fun _ => ⟨exX_wf, rfl, rfl, by intro i hi; interval_cases i <;> rfl, by
      intro _ i j hi hj; interval_cases i <;> interval_cases j <;> rfl⟩)
    (fun _ => rfl) (fun _ _ _ => rfl) exXExpr
  exact ⟨r₁, r₂, K₁.g 1, e1, e2, s1.g 1 (by decide), by rw [hg 1 (by decide)]; exact s2.g 1 (by decide)⟩

/-- Static and dynamic type on the same data. -/
example : ∃ r₁ r₂, exXExpr.evalDD exDyn2 2 (fun _ => exX) = .ok r₁ ∧
    exXExpr.evalDD exSta2 2 (fun _ => exXS) = .ok r₂ ∧ r₁.mData = r₂.mData :=
  C29_static_dynamic_agree exDyn2_valid exSta2_valid rfl (Or.inl rfl) (Or.inr rfl)
    (fun _ => exX_wf) (fun _ => exXS_wf) (fun _ => rfl) exXExpr

/-! ## C32 -/

/-- **C32.** The six comparisons of two jets (of any types and sizes) and of a jet with a scalar
compare the values only.  For the scalar on the left the code calls the mirrored operator, which
gives the comparison of the values whenever the scalar type satisfies `a < b ⟺ b > a` and the
like (as IEEE doubles do, NaN included). -/
theorem C32_comparisons [Cmp α] {c c' : Cfg} {n n' : Nat} {x y : DD α} {J K : Jet α}
    (hx : Shows c n x J) (hy : Shows c' n' y K) (op : DD.CmpOp) (s : α) :
    DD.cmp op x y = .ok (op.scalar J.f K.f) ∧
    DD.cmpS op x s = .ok (op.scalar J.f s) ∧
    ((∀ a b : α, Cmp.eqB a b = Cmp.eqB b a) → (∀ a b : α, Cmp.neB a b = Cmp.neB b a) →
      (∀ a b : α, Cmp.ltB a b = Cmp.gtB b a) → (∀ a b : α, Cmp.leB a b = Cmp.geB b a) →
      DD.sCmp op s x = .ok (op.scalar s J.f)) := by
  refine ⟨?_, ?_, ?_⟩
  · simp [DD.cmp, hx.f, hy.f]
  · simp [DD.cmpS, hx.f]
  · intro h1 h2 h3 h4
    unfold DD.sCmp DD.cmpS
    rw [hx.f]
    cases op
    · simp [DD.CmpOp.mirror, DD.CmpOp.scalar, h1 s]
    · simp [DD.CmpOp.mirror, DD.CmpOp.scalar, h2 s]
    · simp [DD.CmpOp.mirror, DD.CmpOp.scalar, h3 s]
    · simp [DD.CmpOp.mirror, DD.CmpOp.scalar, h3 J.f]
    · simp [DD.CmpOp.mirror, DD.CmpOp.scalar, h4 s]
    · simp [DD.CmpOp.mirror, DD.CmpOp.scalar, h4 J.f]

/-- The extended reals (with NaN) satisfy the four laws, so `s < a`, written with the scalar on
the left, compares the values. -/
theorem C32_scalar_left {c : Cfg} {n : Nat} {x : DD XReal} {J : Jet XReal}
    (hx : Shows c n x J) (op : DD.CmpOp) (s : XReal) :
    DD.sCmp op s x = .ok (op.scalar s J.f) := by
  have hcm : ∀ a b : XReal, Cmp.eqB a b = Cmp.eqB b a := by
    intro a b
    refine decide_eq_decide.2 ?_
    cases a <;> cases b <;> simp [XReal.eq, eq_comm]
  refine (C32_comparisons hx hx op s).2.2 hcm ?_ (fun _ _ => rfl) ?_
  · intro a b
    have := hcm a b
    simpa [Cmp.neB, Cmp.eqB] using this
  · intro a b
    have := hcm a b
    have h2 : a.eq b ↔ b.eq a := decide_eq_decide.1 this
    exact decide_eq_decide.2 (or_congr Iff.rfl h2)

/-- Jets with different gradients and sizes compare by value: 10 < 7 is false. -/
example : DD.cmp .lt exJet exJet1 = .ok false ∧ DD.sCmp .lt (5 : ℚ) exJet = .ok true := by
  constructor
  · simp [DD.cmp, exJet, exJet1, DD.f, rd, DD.CmpOp.scalar, Cmp.ltB]
  · simp [DD.sCmp, DD.cmpS, exJet, DD.f, rd, DD.CmpOp.scalar, DD.CmpOp.mirror, Cmp.gtB]
    norm_num

/-! ## C33 -/

/-- **C33.** `abs` returns the operand itself unless its value compares less than 0 (so also for
NaN), and otherwise the jet with every component negated. -/
theorem C33_abs [CMath α] {c : Cfg} (hv : c.Valid) {n : Nat} {x : DD α} {J : Jet α}
    (hx : Shows c n x J) :
    (Cmp.ltB J.f (Arith.lit 0) = false → DD.abs c x = .ok x) ∧
    (Cmp.ltB J.f (Arith.lit 0) = true → ∃ y, DD.abs c x = .ok y ∧ DD.neg c x = .ok y ∧
      Shows c n y ⟨-ₛ J.f, fun i => -ₛ J.g i, fun i j => -ₛ J.h i j⟩) := by
  obtain ⟨hf, a, rfl⟩ := hx.wf.eq_obj hv.order
  have hJ := hx.unique (shows_obj hv.order hf a)
  have h0 : J.f = a 0 := hJ.1
  constructor
  · intro h
    rw [h0] at h
    rw [abs_obj hf, h]
    simp
  · intro h
    rw [h0] at h
    refine ⟨_, ?_, neg_obj hf a, ?_⟩
    · rw [abs_obj hf, h]; simp
    · apply shows_of_obj hv.order hf
      · rw [h0]
      · intro i hi
        have : J.g i = a (1 + i) := hJ.2.1 i hi
        simp only [this]
      · intro h2 i j hij hj
        have : J.h i j = a (pos n i j) := by
          rw [hJ.2.2 h2 i j (by omega) hj]; simp [jetOf, hij]
        simp only [this]
      · intro h2 i j hi hj
        simp only [hx.sym h2 hi hj]

example : ∃ y, DD.abs exDyn2 (⟨0, [some (XReal.num (-3))]⟩ : DD XReal) = .ok y ∧
    y.f = .ok (XReal.num 3) := by
  have hw : WF exDyn2 0 (⟨0, [some (XReal.num (-3))]⟩ : DD XReal) :=
    ⟨Or.inl rfl, rfl, rfl, by simp⟩
  obtain ⟨J, hJ⟩ := hw.shows exDyn2_valid.order
  have hf : J.f = XReal.num (-3) := by
    have h1 : (⟨0, [some (XReal.num (-3))]⟩ : DD XReal).f = .ok (XReal.num (-3)) := rfl
    have := hJ.f.symm.trans h1
    simpa using this
  obtain ⟨y, h1, _, h2⟩ := (C33_abs exDyn2_valid hJ).2 (by
    rw [hf, XReal.lit_num]; simp [Cmp.ltB, XReal.lt])
  refine ⟨y, h1, ?_⟩
  rw [h2.f, hf, XReal.neg_num]; simp

/-! ## C49 -/

/-- **C49.** The text of a jet is the text of its value followed by `hj`; two jets (of any types
and sizes) with the same value have the same text. -/
theorem C49_text (fmt : α → String) {c c' : Cfg} {n n' : Nat} {x y : DD α} {J K : Jet α}
    (hx : Shows c n x J) (hy : Shows c' n' y K) :
    DD.toStr fmt x = .ok (fmt J.f ++ "hj") ∧ (J.f = K.f → DD.toStr fmt x = DD.toStr fmt y) := by
  have h1 : DD.toStr fmt x = .ok (fmt J.f ++ "hj") := by simp [DD.toStr, hx.f]
  have h2 : DD.toStr fmt y = .ok (fmt K.f ++ "hj") := by simp [DD.toStr, hy.f]
  exact ⟨h1, fun h => by rw [h1, h2, h]⟩

example : DD.toStr (fun q : ℚ => toString q.num) exJet = .ok "10hj" := by
  obtain ⟨J, hJ⟩ := exJet_wf.shows exDyn2_valid.order
  have h := (C49_text (fun q : ℚ => toString q.num) hJ hJ).1
  have : J.f = 10 := by
    have h1 : exJet.f = .ok (10 : ℚ) := rfl
    have := hJ.f.symm.trans h1
    simpa using this
  rw [h, this]
  rfl

/-! ## C15 -/

/-- **C15.** With exceptions, combining two dynamic jets of different sizes throws; the compound
assignments leave the object as it was. -/
theorem C15_size_mismatch [CMath α] {c : Cfg} (hd : c.tsize = -1) (he : c.exc = true)
    {x y : DD α} (hne : x.size c ≠ y.size c) (e : DD α) :
    DD.add c x y = .throw .incompatibleSize ∧ DD.sub c x y = .throw .incompatibleSize ∧
    DD.mul c x y = .throw .incompatibleSize ∧ DD.div c x y = .throw .incompatibleSize ∧
    DD.hypot c x y = .throw .incompatibleSize ∧ DD.hypot3 c x y e = .throw .incompatibleSize ∧
    DD.addAssign c x (.obj y) = (.throw .incompatibleSize, x) ∧
    DD.subAssign c x (.obj y) = (.throw .incompatibleSize, x) ∧
    DD.mulAssign c x (.obj y) = (.throw .incompatibleSize, x) ∧
    DD.divAssign c x (.obj y) = (.throw .incompatibleSize, x) := by
  have hc : checkEqualSize c (x.size c) (y.size c) = .throw .incompatibleSize := by
    unfold checkEqualSize
    simp [(isDynamic_iff c).2 hd, he, hne]
  simp [DD.add, DD.sub, DD.mul, DD.div, DD.hypot, DD.hypot3, DD.addAssign, DD.subAssign,
    DD.mulAssign, DD.divAssign, DD.checked, DD.Operand.size, hc]

example : DD.add exDyn2 exX ⟨0, [some XReal.nan]⟩ = .throw .incompatibleSize :=
  (C15_size_mismatch rfl rfl (by decide) exX).1

/-- With assertions instead of exceptions the mismatch aborts (and also modifies nothing). -/
theorem C15_size_mismatch_noexc [CMath α] {c : Cfg} (hd : c.tsize = -1) (he : c.exc = false)
    (hdbg : c.dbg = true) {x y : DD α} (hne : x.size c ≠ y.size c) :
    DD.add c x y = .abort ∧ DD.sub c x y = .abort ∧ DD.mul c x y = .abort ∧
    DD.div c x y = .abort ∧ DD.hypot c x y = .abort ∧
    DD.addAssign c x (.obj y) = (.abort, x) ∧ DD.subAssign c x (.obj y) = (.abort, x) ∧
    DD.mulAssign c x (.obj y) = (.abort, x) ∧ DD.divAssign c x (.obj y) = (.abort, x) := by
  have hc : checkEqualSize c (x.size c) (y.size c) = .abort := by
    unfold checkEqualSize
    simp [(isDynamic_iff c).2 hd, he, hne, assertB, hdbg]
  simp [DD.add, DD.sub, DD.mul, DD.div, DD.hypot, DD.addAssign, DD.subAssign,
    DD.mulAssign, DD.divAssign, DD.checked, DD.Operand.size, hc]

/-- **C15**, violated by `atan2`: it never throws; with a shorter second operand it reads out of
bounds, with a longer one it silently uses the first part of the other's data (for order 2,
Hessian entries from the wrong positions). -/
theorem C15_violated_atan2 [CMath α] {c : Cfg} (hv : c.Valid) {n m : Nat}
    {x y : DD α} (hx : WF c n x) (hy : WF c m y) :
    (m < n → DD.atan2 c x y = .ub .outOfBounds) ∧
    (n < m → ∃ r, DD.atan2 c x y = .ok r ∧ WF c n r) := by
  obtain ⟨hf, a, rfl⟩ := hx.eq_obj hv.order
  obtain ⟨hf', b, rfl⟩ := hy.eq_obj hv.order
  obtain ⟨r, hr⟩ := empty_ok (α := α) hf
  have hmono : ∀ p q : Nat, p < q → dlen c p < dlen c q := by
    intro p q hpq
    rcases hv.order with h | h
    · rw [dlen_one h, dlen_one h]; omega
    · rw [dlen_two h, dlen_two h]
      have h1 := two_tri_self p
      have h2 := two_tri_self q
      have : p * (p + 1) ≤ q * (q + 1) := Nat.mul_le_mul (by omega) (by omega)
      omega
  constructor
  · intro hmn
    have hlt := hmono m n hmn
    have ho : ¬ c.order < 1 := by have := hv.order; omega
    unfold DD.atan2
    simp only [size_obj hf, hr, Res.ok_bind, f_obj]
    simp only [data_obj]
    unfold binary
    rw [wr_zero (dlen_pos c n) (t1 := fun k => b 0 ÷ₛ (a 0 *ₛ a 0 +ₛ b 0 *ₛ b 0) *ₛ a k +ₛ
      -ₛ a 0 ÷ₛ (a 0 *ₛ a 0 +ₛ b 0 *ₛ b 0) *ₛ b k)]
    simp only [Res.ok_bind, Coef.isZero, Bool.and_self, ho, decide_false, Bool.or_self,
      Bool.false_eq_true, if_false, dataLength_obj hf]
    rw [forUp_fail (lo := 1) (hi := dlen c n) (k := dlen c m) (u := .outOfBounds)
      (fun k => mk (dlen c n) (mix k (fl (fin1 (CMath.atan2 (a 0) (b 0))
        (fun k => b 0 ÷ₛ (a 0 *ₛ a 0 +ₛ b 0 *ₛ b 0) *ₛ a k +ₛ
          -ₛ a 0 ÷ₛ (a 0 *ₛ a 0 +ₛ b 0 *ₛ b 0) *ₛ b k))) r)) (dlen_pos c m) hlt]
    · rfl
    · intro i h1 h2
      simp only [Src.get]
      rw [rd_mk (v := a i) i rfl (by omega) rfl, rd_mk (v := b i) i rfl h2 rfl]
      simp only [Res.ok_bind, Coef.app, addZ, needScalar]
      rw [wr_mix rfl (by omega)]
      simp [fl, fin1, show i ≠ 0 by omega]
    · simp only [Src.get]
      rw [rd_mk (v := a (dlen c m)) (dlen c m) rfl hlt rfl]
      simp only [Res.ok_bind]
      rw [rd_oob (Or.inr (by simp))]
      rfl
  · intro hnm
    have hlt := hmono n m hnm
    have hle := le_dlen c n
    unfold DD.atan2
    simp only [size_obj hf, hr, Res.ok_bind, f_obj]
    simp only [data_obj]
    rw [binary_eq_src hv.order (size_obj hf a) (dataLength_obj hf a) a b b _ _ true _ _ r rfl rfl
      (fun _ => rfl) (fun _ _ _ => rfl)]
    · exact ⟨_, rfl, wf_obj hv.order hf _⟩
    · intro k _ h; exact rd_mk k rfl (by omega) rfl
    · intro r _ i hi
      exact rd_mk (1 + i) (by push_cast; ring) (by omega) rfl

example : DD.atan2 exDyn2 exX ⟨0, [some XReal.nan]⟩ = .ub .outOfBounds :=
  (C15_violated_atan2 exDyn2_valid exX_wf (m := 0) ⟨Or.inl rfl, rfl, rfl, by simp⟩).1
    (by decide)

/-- **C15**, violated by the three-argument `hypot`: the size of the third operand is not
checked. -/
theorem C15_violated_hypot3 [CMath α] {c : Cfg} (hv : c.Valid) {n m : Nat}
    {x y z : DD α} (hx : WF c n x) (hy : WF c n y) (hz : WF c m z) :
    (m < n → DD.hypot3 c x y z = .ub .outOfBounds) ∧
    (n < m → ∃ r, DD.hypot3 c x y z = .ok r ∧ WF c n r) := by
  obtain ⟨hf, a, rfl⟩ := hx.eq_obj hv.order
  obtain ⟨_, b, rfl⟩ := hy.eq_obj hv.order
  obtain ⟨hf', d, rfl⟩ := hz.eq_obj hv.order
  obtain ⟨r, hr⟩ := empty_ok (α := α) hf
  have hmono : ∀ p q : Nat, p < q → dlen c p < dlen c q := by
    intro p q hpq
    rcases hv.order with h | h
    · rw [dlen_one h, dlen_one h]; omega
    · rw [dlen_two h, dlen_two h]
      have h1 := two_tri_self p
      have h2 := two_tri_self q
      have : p * (p + 1) ≤ q * (q + 1) := Nat.mul_le_mul (by omega) (by omega)
      omega
  constructor
  · intro hmn
    have hlt := hmono m n hmn
    have ho : ¬ c.order < 1 := by have := hv.order; omega
    unfold DD.hypot3
    simp only [size_obj hf, checkEqualSize_self, hr, Res.ok_bind, f_obj]
    simp only [data_obj]
    unfold ternary
    rw [wr_zero (dlen_pos c n) (t1 := tLin a b d (a 0 ÷ₛ CMath.hypot3 (a 0) (b 0) (d 0))
      (b 0 ÷ₛ CMath.hypot3 (a 0) (b 0) (d 0)) (d 0 ÷ₛ CMath.hypot3 (a 0) (b 0) (d 0)))]
    simp only [Res.ok_bind, Coef.isZero, Bool.and_self, ho, decide_false, Bool.or_self,
      Bool.false_eq_true, if_false, dataLength_obj hf]
    rw [forUp_fail (lo := 1) (hi := dlen c n) (k := dlen c m) (u := .outOfBounds)
      (fun k => mk (dlen c n) (mix k (fl (fin1 (CMath.hypot3 (a 0) (b 0) (d 0))
        (tLin a b d (a 0 ÷ₛ CMath.hypot3 (a 0) (b 0) (d 0))
      (b 0 ÷ₛ CMath.hypot3 (a 0) (b 0) (d 0)) (d 0 ÷ₛ CMath.hypot3 (a 0) (b 0) (d 0))))) r))
        (dlen_pos c m) hlt]
    · rfl
    · intro i h1 h2
      rw [rd_mk (v := a i) i rfl (by omega) rfl, rd_mk (v := b i) i rfl (by omega) rfl,
        rd_mk (v := d i) i rfl h2 rfl]
      simp only [Res.ok_bind, Coef.app, addZ, needScalar]
      rw [wr_mix rfl (by omega)]
      simp [fl, fin1, tLin, show i ≠ 0 by omega]
    · rw [rd_mk (v := a (dlen c m)) (dlen c m) rfl hlt rfl,
        rd_mk (v := b (dlen c m)) (dlen c m) rfl hlt rfl]
      simp only [Res.ok_bind]
      rw [rd_oob (Or.inr (by simp))]
      rfl
  · intro hnm
    have hlt := hmono n m hnm
    unfold DD.hypot3
    simp only [size_obj hf, checkEqualSize_self, hr, Res.ok_bind, f_obj]
    simp only [data_obj]
    rw [ternary_eq hv.order (size_obj hf a) (dataLength_obj hf a) _ _ _ _ _ _ _ _ _ _ _ _ _ _
      (by omega : dlen c n ≤ dlen c m)]
    exact ⟨_, rfl, wf_obj hv.order hf _⟩

example : DD.hypot3 exDyn2 exX exX ⟨0, [some XReal.nan]⟩ = .ub .outOfBounds :=
  (C15_violated_hypot3 exDyn2_valid exX_wf exX_wf (m := 0)
    ⟨Or.inl rfl, rfl, rfl, by simp⟩).1 (by decide)

end HJ
