import Verif.Spec.SRewrite
import Verif.Props.Rewrite
import Verif.Props.SProgram
import Verif.Props.SDense

/-!
# C93 for sparse scalars: rewriting that does not change a bit
-/

namespace HJ

variable {α V Q : Type}

section
variable [CMath α]

/-- The derivative by one name, from the derivatives of two operands. -/
def mixed (da db : α) : Option α → Option α → Option α
  | none, none => none
  | some u, none => some (u *ₛ da)
  | none, some v => some (v *ₛ db)
  | some u, some v => some (u *ₛ da +ₛ v *ₛ db)

theorem SparseLaws.bin (M : SparseLaws α) (p q : SVal α) (f da db : α) :
    p.bin q f da db = (f, fun j => mixed da db (p.2 j) (q.2 j)) := by
  refine Prod.ext rfl (funext fun j => ?_)
  simp only [SVal.bin]
  cases p.2 j <;> cases q.2 j <;> simp [SMap.step, mixed, M.zero_add, M.sign.comm.mul_comm db]

theorem SparseLaws.bin_comm (M : SparseLaws α) (p q : SVal α) (f da db : α) :
    p.bin q f da db = q.bin p f db da := by
  rw [M.bin, M.bin]
  refine Prod.ext rfl (funext fun j => ?_)
  show mixed _ _ (p.2 j) (q.2 j) = mixed _ _ (q.2 j) (p.2 j)
  cases p.2 j <;> cases q.2 j <;> simp [mixed, M.sign.comm.add_comm (_ *ₛ da)]

theorem SparseLaws.bin_neg (M : SparseLaws α) (p q : SVal α) (f da db : α) :
    p.bin q (-ₛ f) (-ₛ da) (-ₛ db) = (p.bin q f da db).neg := by
  rw [M.bin, M.bin]
  refine Prod.ext rfl (funext fun j => ?_)
  show mixed _ _ (p.2 j) (q.2 j) = (mixed _ _ (p.2 j) (q.2 j)).map fun w => -ₛ w
  cases p.2 j <;> cases q.2 j <;> simp [mixed, M.sign.mul_neg, M.sign.neg_add]

theorem SparseLaws.bin_left (M : SparseLaws α) (p q : SVal α) (f da db : α) :
    p.neg.bin q f da db = p.bin q f (-ₛ da) db := by
  rw [M.bin, M.bin]
  refine Prod.ext rfl (funext fun j => ?_)
  show mixed _ _ ((p.2 j).map fun w => -ₛ w) (q.2 j) = mixed _ _ (p.2 j) (q.2 j)
  cases p.2 j <;> cases q.2 j <;> simp [mixed, M.sign.mul_neg, M.sign.neg_mul]

theorem SparseLaws.bin_right (M : SparseLaws α) (p q : SVal α) (f da db : α) :
    p.bin q.neg f da db = p.bin q f da (-ₛ db) := by
  rw [M.bin_comm, M.bin_left, M.bin_comm]

theorem SparseLaws.un_neg (M : SparseLaws α) (p : SVal α) (f da : α) :
    p.un (-ₛ f) (-ₛ da) = (p.un f da).neg := by
  refine Prod.ext rfl (funext fun j => ?_)
  simp only [SVal.neg, SVal.un]
  cases p.2 j <;> simp [M.sign.mul_neg]

theorem SparseLaws.neg_un (M : SparseLaws α) (p : SVal α) (f da : α) :
    p.neg.un f da = p.un f (-ₛ da) := by
  refine Prod.ext rfl (funext fun j => ?_)
  simp only [SVal.neg, SVal.un]
  cases p.2 j <;> simp [M.sign.mul_neg, M.sign.neg_mul]

theorem Fn.Odd.coefS (M : SignLaws α) {φ : Fn α} (h : φ.Odd) (x : α) :
    (φ.coefS (-ₛ x)).1 = -ₛ (φ.coefS x).1 ∧ (φ.coefS (-ₛ x)).2 = (φ.coefS x).2 := by
  have hm := M.mul_neg
  cases h <;>
    simp only [Fn.coefS, SS.kSin, SS.kAsin, SS.kAtan, SS.kSinh, SS.kTanh, SS.kAsinh, SS.kAtanh, M.sin,
      M.cos, M.asin, M.atan, M.sinh, M.cosh, M.tanh, M.asinh, M.atanh, M.neg_mul, hm, M.neg_div,
      M.neg_neg, and_self]

theorem Fn.Even.coefS (M : SignLaws α) {φ : Fn α} (h : φ.Even) (x : α) :
    (φ.coefS (-ₛ x)).1 = (φ.coefS x).1 ∧ (φ.coefS (-ₛ x)).2 = -ₛ (φ.coefS x).2 := by
  cases h <;> simp only [Fn.coefS, SS.kCos, SS.kCosh, M.sin, M.cos, M.sinh, M.cosh, and_self]

theorem SparseLaws.neg_neg (M : SparseLaws α) (p : SVal α) : p.neg.neg = p := by
  refine Prod.ext (M.sign.neg_neg _) (funext fun j => ?_)
  simp only [SVal.neg]
  cases p.2 j <;> simp [M.sign.neg_neg]

theorem Expr.SameBits.evalV (M : SparseLaws α) (ρ : V → SVal α) {e e' : Expr α V} (h : e.SameBits e') :
    e.evalV ρ = e'.evalV ρ := by
  have S := M.sign
  have hm := S.mul_neg
  have ac := S.comm.add_comm
  have mc := S.comm.mul_comm
  have n1 : ∀ p : SVal α, p.neg.1 = -ₛ p.1 := fun _ => rfl
  induction h with
  | refl => rfl
  | symm _ ih => exact ih.symm
  | trans _ _ ih₁ ih₂ => exact ih₁.trans ih₂
  | neg _ ih => simp only [Expr.evalV, ih]
  | abs _ ih => simp only [Expr.evalV, ih]
  | fn φ _ ih => simp only [Expr.evalV, ih]
  | bin o _ _ ih₁ ih₂ => simp only [Expr.evalV, ih₁, ih₂]
  | sbin o s _ ih => simp only [Expr.evalV, ih]
  | hypot3 _ _ _ ih₁ ih₂ ih₃ => simp only [Expr.evalV, ih₁, ih₂, ih₃]
  | add_comm a b => simp only [Expr.evalV, Bin.val]; rw [M.bin_comm, ac]
  | mul_comm a b => simp only [Expr.evalV, Bin.val]; rw [M.bin_comm, mc]
  | hypot_comm a b => simp only [Expr.evalV, Bin.val]; rw [M.bin_comm, S.hypot_comm]
  | hypot3_comm a b d =>
    simp only [Expr.evalV]
    rw [S.hypot3_comm]
    generalize CMath.hypot3 (b.evalV ρ).1 (a.evalV ρ).1 (d.evalV ρ).1 = f
    refine Prod.ext rfl (funext fun j => ?_)
    have h := congrFun (congrArg Prod.snd (M.bin_comm (a.evalV ρ) (b.evalV ρ) f ((a.evalV ρ).1 ÷ₛ f)
      ((b.evalV ρ).1 ÷ₛ f))) j
    exact congrArg (fun o => SMap.step (fun v w => w +ₛ ((d.evalV ρ).1 ÷ₛ f) *ₛ v) o ((d.evalV ρ).2 j)) h
  | sub_eq a b =>
    simp only [Expr.evalV, Bin.val, n1]
    rw [M.bin_right, M.minus_one, S.comm.add_neg]
  | neg_neg a => exact M.neg_neg _
  | neg_add a b =>
    simp only [Expr.evalV, Bin.val, n1]
    rw [M.bin_right, M.bin_left, S.neg_add, M.bin_neg]
  | neg_mul a b =>
    simp only [Expr.evalV, Bin.val, n1]
    rw [M.bin_left, S.neg_mul, M.bin_neg]
  | neg_div a b =>
    simp only [Expr.evalV, Bin.val, n1]
    rw [M.bin_left, S.neg_mul, S.neg_div (-ₛ _), M.bin_neg]
  | hypot_neg a b =>
    simp only [Expr.evalV, Bin.val, n1]
    rw [M.bin_left, S.hypot_neg, S.neg_div, S.neg_neg]
  | odd a h =>
    obtain ⟨h1, h2⟩ := h.coefS S (a.evalV ρ).1
    simp only [Expr.evalV, n1]
    rw [M.neg_un, h1, h2, M.un_neg]
  | even a h =>
    obtain ⟨h1, h2⟩ := h.coefS S (a.evalV ρ).1
    simp only [Expr.evalV, n1]
    rw [M.neg_un, h1, h2, S.neg_neg]
  | s_add a s => rfl
  | s_mul a s => rfl
  | sub_s a s => rfl
  | s_sub a s => rfl
  | div_s a s => rfl
  | neg_add_s a s =>
    refine Prod.ext ?_ rfl
    exact S.neg_add _ _
  | neg_mul_s a s =>
    simp only [Expr.evalV, SBin.val, n1]
    rw [M.neg_un, S.neg_mul, M.un_neg]
  | mul_s_neg a s =>
    simp only [Expr.evalV, SBin.val]
    rw [hm, M.un_neg]
  | s_div_neg a s =>
    simp only [Expr.evalV, SBin.val]
    rw [S.neg_div s, S.neg_div (-ₛ s), M.un_neg]

theorem rewritten_alike (M : SparseLaws α) {ord ord' : Order α} (ho : ord.Ok) (ho' : ord'.Ok)
    {ρ ρ' : V → SS α} (h : ∀ v, SAlike (ρ v) (ρ' v)) {e e' : Expr α V} (he : e.SameBits e') :
    ∃ r r', e.evalSS ord ρ = .ok r ∧ e'.evalSS ord' ρ' = .ok r' ∧ SAlike r r' := by
  choose p hp using fun v => (h v).1.ex
  obtain ⟨r, h1, h2⟩ := evalSS_spec ho ρ (fun v => (p v, (ρ v).mD.find)) hp e
  obtain ⟨r', k1, k2⟩ := evalSS_spec ho' ρ' (fun v => (p v, (ρ v).mD.find))
    (fun v => (h v).2.2.is (h v).2.1 (hp v)) e'
  rw [he.evalV M] at h2
  exact ⟨r, r', h1, k1, SIs.wf h2, SIs.wf k2, h2.same k2 rfl fun _ => rfl⟩

/-- **C93, sparse expressions.**  Rewritten expressions of sparse scalars give objects that cannot be told
apart: the same value, the same names and the same derivatives bit for bit, for all operands, however the hash
tables are iterated, in every arithmetic with the rules. -/
theorem C93_sparse_expressions (M : SparseLaws α) {ord ord' : Order α} (ho : ord.Ok) (ho' : ord'.Ok)
    {ρ : V → SS α} (h : ∀ v, SWF (ρ v)) {e e' : Expr α V} (he : e.SameBits e') :
    ∃ r r', e.evalSS ord ρ = .ok r ∧ e'.evalSS ord' ρ = .ok r' ∧ SWF r ∧ SWF r' ∧ SameSS r r' :=
  rewritten_alike M ho ho' (fun v => ⟨h v, h v, rfl, rfl, fun _ => rfl, fun _ => Iff.rfl⟩) he

theorem SAlike.symm {x y : SS α} (h : SAlike x y) : SAlike y x :=
  ⟨h.2.1, h.1, h.2.2.f.symm, h.2.2.size.symm, fun k => (h.2.2.d k).symm, fun k => (h.2.2.names k).symm⟩

theorem SAlike.trans {x y z : SS α} (h : SAlike x y) (k : SAlike y z) : SAlike x z :=
  ⟨h.1, k.2.1, h.2.2.f.trans k.2.2.f, h.2.2.size.trans k.2.2.size,
    fun j => (h.2.2.d j).trans (k.2.2.d j), fun j => (h.2.2.names j).trans (k.2.2.names j)⟩

theorem SAlike.refl {x : SS α} (h : SWF x) : SAlike x x :=
  ⟨h, h, rfl, rfl, fun _ => rfl, fun _ => Iff.rfl⟩

variable [DecidableEq V]

/-- An assignment stores something like what the expression gives. -/
theorem assign_alike (M : SparseLaws α) {ord ord' : Order α} (ho : ord.Ok) (ho' : ord'.Ok)
    {ρ ρ' : SStore α V} (h : ∀ v, SAlike (ρ v) (ρ' v)) (t : V) {e e' : Expr α V} (he : e.SameBits e') :
    ∃ r r' x x', (SStmt.assign t e).run ord ρ = ρ.put t r ∧
      (SStmt.assign t e').run ord' ρ' = ρ'.put t r' ∧
      r = .ok x ∧ r' = .ok x' ∧ SAlike x x' := by
  have key : ∀ {ord : Order α} (ρ : SStore α V), ord.Ok → (∀ v, SWF (ρ v)) → ∀ e : Expr α V, ∀ x,
      e.evalSS ord ρ = .ok x → ∃ r y, (SStmt.assign t e).run ord ρ = ρ.put t r ∧ r = .ok y ∧
        (SWF x → SAlike x y) := by
    intro ord ρ ho hw e x hx
    cases e with
    | var s =>
      cases hx
      obtain ⟨v, hv⟩ := (hw s).ex
      obtain ⟨r, k1, k2⟩ := is_copied ho hv
      exact ⟨_, r, rfl, k1, fun _ => ⟨hv.wf, k2.wf, hv.same k2 rfl fun _ => rfl⟩⟩
    | _ => exact ⟨_, x, rfl, hx, SAlike.refl⟩
  obtain ⟨x, x', h1, h2, h3⟩ := rewritten_alike M ho ho' h he
  obtain ⟨r, y, k1, k2, k3⟩ := key ρ ho (fun v => (h v).1) e x h1
  obtain ⟨r', y', l1, l2, l3⟩ := key ρ' ho' (fun v => (h v).2.1) e' x' h2
  exact ⟨r, r', y, y', k1, l1, k2, l2, ((k3 h3.1).symm.trans h3).trans (l3 h3.2.1)⟩

/-- One call of each program. -/
def SStepAlike (k k' : SCall α V) : Prop :=
  ∀ (ord ord' : Order α) (ρ ρ' : SStore α V), ord.Ok → ord'.Ok → (∀ v, SAlike (ρ v) (ρ' v)) →
    ∃ a p p', ssLibrary α V k (ord, ρ) = (.ok a, p) ∧ ssLibrary α V k' (ord', ρ') = (.ok a, p') ∧
      (p.1.Ok ∧ p'.1.Ok) ∧ ∀ v, SAlike (p.2 v) (p'.2 v)

theorem sstepAlike_refl {k : SCall α V} (hk : k.DictOk) : SStepAlike k k := by
  intro ord ord' ρ ρ' ho ho' h
  cases k with
  | act s =>
    obtain ⟨τ, τ', h1, h2, h3⟩ := sstep_alike (ho.sub 0) (ho'.sub 0) h s hk
    exact ⟨.done, (ord.sub 1, τ), (ord'.sub 1, τ'), by simp only [ssLibrary, h1, Answer.of],
      by simp only [ssLibrary, h2, Answer.of], ⟨ho.sub 1, ho'.sub 1⟩, h3⟩
  | ask b =>
    obtain ⟨r, h1, h2⟩ := cond_alike (ho.sub 2) (ho'.sub 2) h b
    exact ⟨.truth r, (ord, ρ), (ord', ρ'), by simp only [ssLibrary, h1, Answer.of],
      by simp only [ssLibrary, h2, Answer.of], ⟨ho, ho'⟩, h⟩
  | f v =>
    obtain ⟨w, h1, h2⟩ := (h v).f
    exact ⟨.number w, (ord, ρ), (ord', ρ'), by simp only [ssLibrary, h1, Answer.of],
      by simp only [ssLibrary, h2, Answer.of], ⟨ho, ho'⟩, h⟩
  | d v k =>
    exact ⟨.number ((ρ v).d k), (ord, ρ), (ord', ρ'), rfl,
      by simp only [ssLibrary, ← (h v).2.2.d k], ⟨ho, ho'⟩, h⟩
  | size v m =>
    exact ⟨.truth (decide ((ρ v).size = m)), (ord, ρ), (ord', ρ'), rfl,
      by simp only [ssLibrary, ← (h v).2.2.size], ⟨ho, ho'⟩, h⟩

theorem sstepAlike_act {s s' : SStmt α V}
    (H : ∀ (ord ord' : Order α) (ρ ρ' : SStore α V), ord.Ok → ord'.Ok →
    (∀ v, SAlike (ρ v) (ρ' v)) → ∃ τ τ', s.run ord ρ = (.ok (), τ) ∧ s'.run ord' ρ' = (.ok (), τ') ∧
      ∀ v, SAlike (τ v) (τ' v)) : SStepAlike (.act s) (.act s') := by
  intro ord ord' ρ ρ' ho ho' h
  obtain ⟨τ, τ', h1, h2, h3⟩ := H (ord.sub 0) (ord'.sub 0) ρ ρ' (ho.sub 0) (ho'.sub 0) h
  exact ⟨.done, (ord.sub 1, τ), (ord'.sub 1, τ'), by simp only [ssLibrary, h1, Answer.of],
    by simp only [ssLibrary, h2, Answer.of], ⟨ho.sub 1, ho'.sub 1⟩, h3⟩

theorem sstepAlike_ask {b b' : Cond α V}
    (H : ∀ (ord ord' : Order α) (ρ ρ' : SStore α V), ord.Ok → ord'.Ok →
    (∀ v, SAlike (ρ v) (ρ' v)) → ∃ r, b.runSS ord ρ = .ok r ∧ b'.runSS ord' ρ' = .ok r) :
    SStepAlike (.ask b) (.ask b') := by
  intro ord ord' ρ ρ' ho ho' h
  obtain ⟨r, h1, h2⟩ := H (ord.sub 2) (ord'.sub 2) ρ ρ' (ho.sub 2) (ho'.sub 2) h
  exact ⟨.truth r, (ord, ρ), (ord', ρ'), by simp only [ssLibrary, h1, Answer.of],
    by simp only [ssLibrary, h2, Answer.of], ⟨ho, ho'⟩, h⟩

theorem operand_obj {ord : Order α} {ρ : SStore α V} {t : V} {e : Expr α V} {x : SS α} (he : e ≠ .var t)
    (hx : e.evalSS ord ρ = .ok x) : ρ.operand ord t e = .ok (.obj x) := by
  cases e with
  | var s =>
    cases hx
    have : s ≠ t := fun h => he (by rw [h])
    simp [SStore.operand, this]
  | _ => simp only [SStore.operand, hx, Res.ok_bind]

theorem SCall.SameBits.step (M : SparseLaws α) {k k' : SCall α V} (h : k.SameBits k') :
    SStepAlike k k' := by
  induction h with
  | refl hk => exact sstepAlike_refl hk
  | symm _ ih =>
    intro ord ord' ρ ρ' ho ho' h
    obtain ⟨a, p, p', h1, h2, ⟨h3, h4⟩, h5⟩ := ih ord' ord ρ' ρ ho' ho fun v => (h v).symm
    exact ⟨a, p', p, h2, h1, ⟨h4, h3⟩, fun v => (h5 v).symm⟩
  | trans _ _ ih₁ ih₂ =>
    intro ord ord' ρ ρ' ho ho' h
    obtain ⟨a, p, p', h1, h2, ⟨h3, _⟩, h5⟩ := ih₁ ord ord' ρ ρ' ho ho' h
    obtain ⟨b, q, q', k1, k2, ⟨_, k4⟩, k5⟩ := ih₂ ord' ord' ρ' ρ' ho' ho' fun v => .refl (h v).2.1
    rw [h2] at k1
    obtain ⟨e1, rfl⟩ := Prod.mk.inj k1
    cases e1
    exact ⟨a, p, q', h1, k2, ⟨h3, k4⟩, fun v => (h5 v).trans (k5 v)⟩
  | assign t he =>
    refine sstepAlike_act fun ord ord' ρ ρ' ho ho' h => ?_
    obtain ⟨r, r', x, x', h1, h2, h3, h4, h5⟩ := assign_alike M ho ho' h t he
    rw [h1, h2]
    exact put_alike h t h3 h4 h5
  | @upd o t e e' he h1 h2 =>
    refine sstepAlike_act fun ord ord' ρ ρ' ho ho' h => ?_
    obtain ⟨x, x', k1, k2, k3⟩ := rewritten_alike M (ho.sub 1) (ho'.sub 1) h he
    obtain ⟨r, r', l1, l2, l3⟩ := asg_alike (ho.sub 0) (ho'.sub 0) o (h t) (b := .obj x) (b' := .obj x')
      k3.1 k3.2.1 k3.2.2
    exact put_alike h t (by simp only [operand_obj (h1 t) k1, Res.ok_bind, l1])
      (by simp only [operand_obj (h2 t) k2, Res.ok_bind, l2]) l3
  | @inplace t e h1 =>
    refine sstepAlike_act fun ord ord' ρ ρ' ho ho' h => ?_
    choose p hp using fun v => (h v).1.ex
    obtain ⟨x, k1, k2⟩ := evalSS_spec (ho.sub 1) ρ (fun v => (p v, (ρ v).mD.find)) hp e
    obtain ⟨y, k3, k4⟩ := evalSS_spec ho' ρ' (fun v => (p v, (ρ v).mD.find))
      (fun v => (h v).2.2.is (h v).2.1 (hp v)) (.bin .mul (.var t) e)
    obtain ⟨r, r', l1, l2, l3, l4⟩ := C43_mul_assign (ho.sub 0) (ho.sub 0) (ρ t) x (h t).1 (SIs.wf k2)
    obtain ⟨z, m1, m2⟩ := evalSS_spec ho (fun b => if b then ρ t else x)
      (fun b => if b then (p t, (ρ t).mD.find) else e.evalV fun v => (p v, (ρ v).mD.find))
      (fun b => by cases b; exacts [k2, hp t]) (.bin .mul (.var true) (.var false))
    have hz : SS.mul (ord.sub 0) (ρ t) x = .ok z := m1
    rw [l2] at hz
    cases hz
    have m2 : SIsV r' ((Expr.bin .mul (.var t) e).evalV fun v => (p v, (ρ v).mD.find)) := m2
    have h5 : SAlike r' y := ⟨SIs.wf m2, SIs.wf k4, m2.same k4 rfl fun _ => rfl⟩
    have h6 : SAlike r r' := ⟨l4, SIs.wf m2, l3⟩
    exact put_alike h t (by simp only [operand_obj h1 k1, Res.ok_bind, AOp.runSS, l1]) k3 (h6.trans h5)
  | cmp op h1 h2 =>
    refine sstepAlike_ask fun ord ord' ρ ρ' ho ho' h => ?_
    obtain ⟨x, x', k1, k2, k3⟩ := rewritten_alike M (ho.sub 0) (ho'.sub 0) h h1
    obtain ⟨y, y', l1, l2, l3⟩ := rewritten_alike M (ho.sub 1) (ho'.sub 1) h h2
    obtain ⟨v, v1, v2⟩ := k3.f
    obtain ⟨w, w1, w2⟩ := l3.f
    exact ⟨op.scalar v w, by simp only [Cond.runSS, k1, l1, Res.ok_bind, SS.cmp, v1, w1],
      by simp only [Cond.runSS, k2, l2, Res.ok_bind, SS.cmp, v2, w2]⟩
  | cmpS op s h1 =>
    refine sstepAlike_ask fun ord ord' ρ ρ' ho ho' h => ?_
    obtain ⟨x, x', k1, k2, k3⟩ := rewritten_alike M ho ho' h h1
    obtain ⟨v, v1, v2⟩ := k3.f
    exact ⟨op.scalar v s, by simp only [Cond.runSS, k1, Res.ok_bind, SS.cmpS, v1],
      by simp only [Cond.runSS, k2, Res.ok_bind, SS.cmpS, v2]⟩
  | sCmp op s h1 =>
    refine sstepAlike_ask fun ord ord' ρ ρ' ho ho' h => ?_
    obtain ⟨x, x', k1, k2, k3⟩ := rewritten_alike M ho ho' h h1
    obtain ⟨v, v1, v2⟩ := k3.f
    exact ⟨(SS.mirror op).scalar v s, by simp only [Cond.runSS, k1, Res.ok_bind, SS.sCmp, SS.cmpS, v1],
      by simp only [Cond.runSS, k2, Res.ok_bind, SS.sCmp, SS.cmpS, v2]⟩

/-- **C93, sparse programs.**  Client code on sparse scalars in which expressions are rewritten, or `x *= y` is
written as `x = x * y` for different objects, goes through the same states with the same answers and leaves
objects that cannot be told apart, however the hash tables are iterated, after any number of calls. -/
theorem C93_sparse_programs (M : SparseLaws α) {cl cl' : Caller (SCall α V) (Answer α) Q}
    (hs : cl.SSameBits cl') (q : Q) {ord ord' : Order α} (ho : ord.Ok) (ho' : ord'.Ok)
      (ρ ρ' : SStore α V)
    (hρ : ∀ v, SWF (ρ v)) (hρ' : ∀ v, SWF (ρ' v)) (h : ∀ v, SameSS (ρ v) (ρ' v)) (j : Nat) :
    (cl.run (ssLibrary α V) j q (ord, ρ) = none ∧ cl'.run (ssLibrary α V) j q (ord', ρ') = none) ∨
    ∃ q' p p', cl.run (ssLibrary α V) j q (ord, ρ) = some (.ok q', p) ∧
      cl'.run (ssLibrary α V) j q (ord', ρ') = some (.ok q', p') ∧
      ∀ v, SWF (p.2 v) ∧ SWF (p'.2 v) ∧ SameSS (p.2 v) (p'.2 v) := by
  replace h : ∀ v, SAlike (ρ v) (ρ' v) := fun v => ⟨hρ v, hρ' v, h v⟩
  clear hρ hρ'
  induction j generalizing q ord ord' ρ ρ' with
  | zero => exact Or.inl ⟨rfl, rfl⟩
  | succ j ih =>
    obtain ⟨h1, h2⟩ | ⟨k, k', h1, h2, h3⟩ := hs.next q
    · refine Or.inr ⟨q, (ord, ρ), (ord', ρ'), ?_, ?_, h⟩
      · simp only [Caller.run, h1]
      · simp only [Caller.run, h2]
    · obtain ⟨a, ⟨o, τ⟩, ⟨o', τ'⟩, l1, l2, ⟨l3, l4⟩, l5⟩ := h3.step M ord ord' ρ ρ' ho ho' h
      simp only [Caller.run, h1, h2, l1, l2, hs.after]
      exact ih _ l3 l4 τ τ' l5

end

/-! ## The rules in floating point -/

/-- The rules hold in exact arithmetic with infinities and NaN. -/
theorem sparseLaws_xreal : SparseLaws XReal where
  sign := signLaws_xreal
  zero_add x y := by
    generalize x *ₛ y = z
    cases z <;> simp [Arith.add, Arith.lit, XReal.add]
  minus_one := by simp [Arith.lit, Arith.neg, XReal.neg]

/-- The rules hold in every binary format, for instance `double` and `float`, with infinities, NaN, overflow
and underflow. -/
theorem sparseLaws_ieee {p : Nat} (hp : 1 ≤ p) (emax : Nat) : SparseLaws (IEEE p emax) where
  sign := signLaws_ieee p emax
  zero_add x y := by
    rw [fmt_lit_zero]
    refine IEEE.ext ?_
    have h : ∀ z : XReal, XReal.num 0 +ₛ z = z := fun z => by
      cases z <;> simp [Arith.add, XReal.add]
    exact (congrArg (toFmt p emax) (h _)).trans (toFmt_idem hp (x.val *ₛ y.val))
  minus_one := IEEE.ext ((congrArg (toFmt p emax) sparseLaws_xreal.minus_one).trans (toFmt_neg _))

/-! ## Examples -/

/-- `a * b - sin(-a)` and `b * a + sin(a)` in `double`, with the hash tables iterated in opposite orders. -/
example (x y : IEEE 53 1023) : ∃ r r' : SS (IEEE 53 1023),
    (.bin .sub (.bin .mul (.var 0) (.var 1)) (.fn .sin (.neg (.var 0))) : Expr _ (Fin 2)).evalSS exFwd
      ![SS.var exFwd "a" x, SS.var exFwd "b" y] = .ok r ∧
    (.bin .add (.bin .mul (.var 1) (.var 0)) (.fn .sin (.var 0)) : Expr _ (Fin 2)).evalSS exRev
      ![SS.var exFwd "a" x, SS.var exFwd "b" y] = .ok r' ∧ SWF r ∧ SWF r' ∧ SameSS r r' :=
  C93_sparse_expressions (sparseLaws_ieee (by norm_num) 1023) exFwd_ok exRev_ok (V := Fin 2) (fun v => by
      match v with
      | 0 => exact (SS.is_var exFwd_ok _ _).wf
      | 1 => exact (SS.is_var exFwd_ok _ _).wf)
    ((Expr.SameBits.sub_eq (.bin .mul (.var 0) (.var 1)) (.fn .sin (.neg (.var 0)))).trans
      (.bin .add (.mul_comm _ _) ((Expr.SameBits.neg (.odd _ .sin)).trans (.neg_neg _))))

/-- `exSPowers` with `r = x * r` and `x = (-x) * (-x)`. -/
def exSPowersRewritten (α : Type) : Caller (SCall α (Fin 2)) (Answer α) Nat where
  next m := if m = 0 then none
    else if m % 2 = 1 then some (.act (.assign 1 (.bin .mul (.var 0) (.var 1))))
    else some (.act (.assign 0 (.bin .mul (.neg (.var 0)) (.neg (.var 0)))))
  after m _ := if m % 2 = 1 then m - 1 else m / 2

example (N j : Nat) (ρ : SStore (IEEE 24 127) (Fin 2)) (h : ∀ v, SWF (ρ v)) :
    ((exSPowers _).run (ssLibrary _ _) j N (exFwd, ρ) = none ∧
      (exSPowersRewritten _).run (ssLibrary _ _) j N (exRev, ρ) = none) ∨
    ∃ q p p', (exSPowers _).run (ssLibrary _ _) j N (exFwd, ρ) = some (.ok q, p) ∧
      (exSPowersRewritten _).run (ssLibrary _ _) j N (exRev, ρ) = some (.ok q, p') ∧
      ∀ v, SWF (p.2 v) ∧ SWF (p'.2 v) ∧ SameSS (p.2 v) (p'.2 v) := by
  have hs : (exSPowers (IEEE 24 127)).SSameBits (exSPowersRewritten _) := by
    refine ⟨fun m => ?_, fun _ _ => rfl⟩
    by_cases h0 : m = 0
    · exact Or.inl ⟨if_pos h0, if_pos h0⟩
    · by_cases h1 : m % 2 = 1
      · refine Or.inr ⟨_, _, (if_neg h0).trans (if_pos h1), (if_neg h0).trans (if_pos h1), ?_⟩
        exact (SCall.SameBits.inplace 1 (by simp)).trans (.assign 1 (.mul_comm _ _))
      · refine Or.inr ⟨_, _, (if_neg h0).trans (if_neg h1), (if_neg h0).trans (if_neg h1), .assign 0 ?_⟩
        exact .symm
          ((Expr.SameBits.neg_mul _ _).trans ((Expr.SameBits.neg ((Expr.SameBits.mul_comm _ _).trans
          (.neg_mul _ _))).trans (.neg_neg _)))
  exact C93_sparse_programs (sparseLaws_ieee (by norm_num) 127) hs N exFwd_ok exRev_ok ρ ρ h h
    (fun v => ⟨rfl, rfl, fun _ => rfl, fun _ => Iff.rfl⟩) j

/-- The rules in exact arithmetic. -/
example (x y : XReal) : Arith.lit 0 +ₛ x *ₛ y = x *ₛ y := sparseLaws_xreal.zero_add x y

end HJ
