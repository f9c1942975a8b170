import Verif.Props.Scale
import Verif.Props.SBlock

/-!
# C92 for sparse scalars
-/

namespace HJ

open SMap

section any

variable {α V Q : Type} [CMath α] {σ : String → α → α}

/-- Same value, the entries in other units. -/
def SVal.Scaled (σ : String → α → α) (p p' : SVal α) : Prop :=
  p'.1 = p.1 ∧ ∀ k, p'.2 k = (p.2 k).map (σ k)

theorem Scales.step (hσ : Scales σ) (k : String) {g : α → α → α}
    (hg : ∀ v w, g (σ k v) (σ k w) = σ k (g v w)) (p q : Option α) :
    step g (p.map (σ k)) (q.map (σ k)) = (step g p q).map (σ k) := by
  cases q with
  | none => rfl
  | some v =>
    cases p with
    | none =>
      show some (g (σ k v) (Arith.lit 0)) = some (σ k (g v (Arith.lit 0)))
      rw [← hg, hσ.zero]
    | some w => exact congrArg some (hg v w)

theorem Scales.scaleO (hσ : Scales σ) (k : String) (t : α) (p : Option α) :
    (p.map (σ k)).map (· *ₛ t) = (p.map (· *ₛ t)).map (σ k) := by
  cases p with
  | none => rfl
  | some v => exact congrArg some (hσ.mulL k v t).symm

theorem Scales.negO (hσ : Scales σ) (k : String) (p : Option α) :
    (p.map (σ k)).map (fun w => -ₛ w) = (p.map fun w => -ₛ w).map (σ k) := by
  cases p with
  | none => rfl
  | some v => exact congrArg some (hσ.neg k v).symm

theorem Scales.accO (hσ : Scales σ) (k : String) (t : α) (v w : α) :
    σ k w +ₛ t *ₛ σ k v = σ k (w +ₛ t *ₛ v) := by
  rw [hσ.add, ← hσ.mulR]

theorem SVal.Scaled.un (hσ : Scales σ) {p p' : SVal α} (h : SVal.Scaled σ p p') (f d : α) :
    SVal.Scaled σ (p.un f d) (p'.un f d) :=
  ⟨rfl, fun k => by simp only [SVal.un, h.2 k, hσ.scaleO]⟩

theorem SVal.Scaled.neg (hσ : Scales σ) {p p' : SVal α} (h : SVal.Scaled σ p p') :
    SVal.Scaled σ p.neg p'.neg :=
  ⟨by simp only [SVal.neg, h.1], fun k => by simp only [SVal.neg, h.2 k, hσ.negO]⟩

theorem SVal.Scaled.bin' (hσ : Scales σ) {p p' q q' : SVal α} (h : SVal.Scaled σ p p')
    (k : SVal.Scaled σ q q') (f da db : α) : SVal.Scaled σ (p.bin q f da db) (p'.bin q' f da db) :=
  ⟨rfl, fun j => by
    simp only [SVal.bin, h.2 j, k.2 j, hσ.scaleO]
    exact hσ.step j (hσ.accO j db) _ _⟩

theorem SVal.Scaled.bin (hσ : Scales σ) {p p' q q' : SVal α} (h : SVal.Scaled σ p p')
    (k : SVal.Scaled σ q q') (o : Bin) : SVal.Scaled σ (o.val p q) (o.val p' q') := by
  cases o <;> simp only [Bin.val, h.1, k.1] <;> exact h.bin' hσ k _ _ _

theorem SVal.Scaled.sbin (hσ : Scales σ) {p p' : SVal α} (h : SVal.Scaled σ p p') (o : SBin) (s : α) :
    SVal.Scaled σ (o.val p s) (o.val p' s) := by
  cases o <;> simp only [SBin.val, h.1] <;>
    first | exact h.un hσ _ _ | exact ⟨rfl, h.2⟩ | exact ⟨rfl, (h.neg hσ).2⟩

theorem Expr.evalV_scaled (hσ : Scales σ) {p p' : V → SVal α} (h : ∀ v, SVal.Scaled σ (p v) (p' v))
    (e : Expr α V) : SVal.Scaled σ (e.evalV p) (e.evalV p') := by
  induction e with
  | var v => exact h v
  | const s => exact ⟨rfl, fun _ => rfl⟩
  | neg e ih => exact ih.neg hσ
  | abs e ih =>
    simp only [Expr.evalV, ih.1]
    split
    · exact ih.neg hσ
    · exact ih
  | fn φ e ih =>
    simp only [Expr.evalV, ih.1]
    exact ih.un hσ _ _
  | bin o e₁ e₂ ih₁ ih₂ => exact ih₁.bin hσ ih₂ o
  | sbin o e s ih => exact ih.sbin hσ o s
  | hypot3 e₁ e₂ e₃ ih₁ ih₂ ih₃ =>
    refine ⟨by simp only [Expr.evalV, SVal.tern, ih₁.1, ih₂.1, ih₃.1], fun j => ?_⟩
    simp only [Expr.evalV, SVal.tern, ih₁.1, ih₂.1, ih₃.1, ih₁.2 j, ih₂.2 j, ih₃.2 j, hσ.scaleO]
    rw [hσ.step j (hσ.accO j _), hσ.step j (hσ.accO j _)]

/-- The same for objects. -/
def SOScaled (σ : String → α → α) (x x' : SS α) : Prop :=
  ∃ p p', SIsV x p ∧ SIsV x' p' ∧ SVal.Scaled σ p p'

omit [CMath α] in
theorem SOScaled.f {x x' : SS α} (h : SOScaled σ x x') : ∃ v, x.f = .ok v ∧ x'.f = .ok v := by
  obtain ⟨p, p', h1, h2, h3⟩ := h
  exact ⟨p.1, SS.f_ok h1, by rw [SS.f_ok h2, h3.1]⟩

omit [CMath α] in
theorem SOScaled.size {x x' : SS α} (h : SOScaled σ x x') : x'.size = x.size := by
  obtain ⟨p, p', h1, h2, h3⟩ := h
  have hk : (keys (x.mD.map fun e => (e.1, σ e.1 e.2))) = keys x.mD := by simp [keys, Function.comp_def]
  have hfind : ∀ (m : SMap α) k, find (m.map fun e => (e.1, σ e.1 e.2)) k = (find m k).map (σ k) := by
    intro m k
    induction m with
    | nil => rfl
    | cons e m ih =>
      rw [List.map_cons, find_cons, find_cons, ih]
      by_cases h : e.1 = k
      · simp [h]
      · simp [h]
  have := size_eq_of_look h2.nodup (hk ▸ h1.nodup) fun k => by
    rw [hfind, h2.look, h1.look, h3.2 k]
  unfold SS.size
  rw [this, List.length_map]

theorem SOScaled.same (hσ : Scales σ) {x x' : SS α} (h : SOScaled σ x x') : SScaledBy σ x x' := by
  obtain ⟨v, k1, k2⟩ := h.f
  obtain ⟨p, p', h1, h2, h3⟩ := h
  refine ⟨h1.wf, h2.wf, k2.trans k1.symm, fun k => ?_, fun k => ?_⟩
  · rw [h1.mem, h2.mem, h3.2 k]
    simp
  · rw [SS.d_eq h1, SS.d_eq h2, h3.2 k]
    cases p.2 k with
    | none => exact (hσ.zero k).symm
    | some v => rfl

theorem SScaledBy.on {x x' : SS α} (h : SScaledBy σ x x') : SOScaled σ x x' := by
  obtain ⟨v, h1⟩ := h.wf.ex
  obtain ⟨v', h2⟩ := h.wf'.ex
  refine ⟨(v, x.mD.find), (v', x'.mD.find), h1, h2, ?_, fun k => ?_⟩
  · have := h.f
    rw [SS.f_ok h1, SS.f_ok h2] at this
    exact Res.ok.inj this
  · have hm := h.names k
    have hd := h.d k
    rw [h1.mem, h2.mem] at hm
    rw [SS.d_eq h1, SS.d_eq h2] at hd
    dsimp only at hm hd ⊢
    cases e : x.mD.find k with
    | none =>
      rw [e] at hm
      cases e' : x'.mD.find k with
      | none => rfl
      | some w => rw [e'] at hm; simp at hm
    | some u =>
      rw [e] at hm hd
      cases e' : x'.mD.find k with
      | none => rw [e'] at hm; simp at hm
      | some w => rw [e'] at hd; exact congrArg some hd

section ops

variable [DecidableEq V]

omit [CMath α] in
theorem put_scaled {ρ ρ' : SStore α V} (h : ∀ v, SOScaled σ (ρ v) (ρ' v)) (t : V) {r r' : Res (SS α)}
    {a a' : SS α} (hr : r = .ok a) (hr' : r' = .ok a') (ha : SOScaled σ a a') :
    ∃ τ τ', ρ.put t r = (.ok (), τ) ∧ ρ'.put t r' = (.ok (), τ') ∧ ∀ v, SOScaled σ (τ v) (τ' v) := by
  subst hr hr'
  refine ⟨_, _, rfl, rfl, fun v => ?_⟩
  by_cases hv : v = t
  · simp only [hv, if_true]; exact ha
  · simp only [hv, if_false]; exact h v

/-- Related tables. -/
def MScaled (σ : String → α → α) (m m' : SMap α) : Prop :=
  m.keys.Nodup ∧ m'.keys.Nodup ∧ ∀ k, m'.find k = (m.find k).map (σ k)

omit [CMath α] [DecidableEq V] in
theorem MScaled.obj {m m' : SMap α} (h : MScaled σ m m') (v : α) :
    SOScaled σ (⟨some v, m⟩ : SS α) ⟨some v, m'⟩ :=
  ⟨(v, m.find), (v, m'.find), ⟨rfl, h.1, fun _ => rfl⟩, ⟨rfl, h.2.1, fun _ => rfl⟩, rfl, h.2.2⟩

omit [CMath α] [DecidableEq V] in
theorem MScaled.self {m m' : SMap α} (h : MScaled σ m m') (g : α → α → α)
    (hg : ∀ k v, g (σ k v) (σ k v) = σ k (g v v)) : MScaled σ (accumSelf g m) (accumSelf g m') := by
  have h1 := accumSelf_spec g h.1
  have h2 := accumSelf_spec g h.2.1
  refine ⟨h1.1, h2.1, fun k => ?_⟩
  rw [h1.2, h2.2, h.2.2 k]
  cases m.find k with
  | none => rfl
  | some v => exact congrArg some (hg k v)

omit [DecidableEq V] in
theorem MScaled.scale (hσ : Scales σ) {m m' : SMap α} (h : MScaled σ m m') (t : α) :
    MScaled σ (scale m t) (scale m' t) := by
  have e1 : (SMap.scale m t).keys = m.keys := keys_map m fun e => e.2 *ₛ t
  have e2 : (SMap.scale m' t).keys = m'.keys := keys_map m' fun e => e.2 *ₛ t
  refine ⟨by rw [e1]; exact h.1, by rw [e2]; exact h.2.1, fun k => ?_⟩
  rw
    [SMap.scale, SMap.scale, find_map m fun e => e *ₛ t, find_map m' fun e => e *ₛ t, h.2.2 k, hσ.scaleO]

/-- Related right operands of compound assignments. -/
def OperandScaled (σ : String → α → α) : SS.Operand α → SS.Operand α → Prop
  | .self, .self => True
  | .obj y, .obj y' => SOScaled σ y y'
  | _, _ => False

omit [DecidableEq V] in
theorem MScaled.into (hσ : Scales σ) {ord ord' : Order α} (ho : ord.Ok) (ho' : ord'.Ok) {m m' : SMap α}
    (h : MScaled σ m m') (g : α → α → α) (hg : ∀ k v w, g (σ k v) (σ k w) = σ k (g v w))
    {b b' : SS.Operand α} (hb : OperandScaled σ b b') :
    MScaled σ (SS.accumInto ord g m b) (SS.accumInto ord' g m' b') := by
  cases b with
  | self =>
    cases b' with
    | self => exact h.self g fun k v => hg k v v
    | obj y' => exact hb.elim
  | obj y =>
    cases b' with
    | self => exact hb.elim
    | obj y' =>
      obtain ⟨p, p', h1, h2, h3⟩ := hb
      have k1 := SS.accumInto_look ho g h.1 h1
      have k2 := SS.accumInto_look ho' g h.2.1 h2
      exact ⟨k1.1, k2.1, fun k => by rw [k1.2, k2.2, h.2.2 k, h3.2 k, hσ.step k (hg k)]⟩

omit [CMath α] [DecidableEq V] in
theorem SOScaled.map {x x' : SS α} (h : SOScaled σ x x') : MScaled σ x.mD x'.mD := by
  obtain ⟨p, p', h1, h2, h3⟩ := h
  exact ⟨h1.nodup, h2.nodup, fun k => by rw [h1.look, h2.look, h3.2 k]⟩

omit [DecidableEq V] in
theorem asg_scaled (hσ : Scales σ) {ord ord' : Order α} (ho : ord.Ok) (ho' : ord'.Ok) (o : AOp)
    {x x' : SS α} (h : SOScaled σ x x') {b b' : SS.Operand α} (hb : OperandScaled σ b b') :
    ∃ r r', o.runSS ord x b = .ok r ∧ o.runSS ord' x' b' = .ok r' ∧ SOScaled σ r r' := by
  obtain ⟨v, h1, h2⟩ := h.f
  have hw : ∃ w, (b.get x).f = .ok w ∧ (b'.get x').f = .ok w := by
    cases b with
    | self =>
      cases b' with
      | self => exact h.f
      | obj y' => exact hb.elim
    | obj y =>
      cases b' with
      | self => exact hb.elim
      | obj y' => exact SOScaled.f hb
  obtain ⟨w, k1, k2⟩ := hw
  cases o with
  | add => exact ⟨_, _, by simp only [AOp.runSS, SS.addAssign, h1, k1, Res.ok_bind]; rfl,
      by simp only [AOp.runSS, SS.addAssign, h2, k2, Res.ok_bind],
      (h.map.into hσ ho ho' _ (fun k v w => (hσ.add k w v).symm) hb).obj _⟩
  | sub => exact ⟨_, _, by simp only [AOp.runSS, SS.subAssign, h1, k1, Res.ok_bind]; rfl,
      by simp only [AOp.runSS, SS.subAssign, h2, k2, Res.ok_bind],
      (h.map.into hσ ho ho' _ (fun k v w => (hσ.sub k w v).symm) hb).obj _⟩
  | mul => exact ⟨_, _, by simp only [AOp.runSS, SS.mulAssign, h1, k1, Res.ok_bind]; rfl,
      by simp only [AOp.runSS, SS.mulAssign, h2, k2, Res.ok_bind],
      ((h.map.scale hσ w).into hσ ho ho' _ (fun k => hσ.accO k _) hb).obj _⟩
  | div => exact ⟨_, _, by simp only [AOp.runSS, SS.divAssign, h1, k1, Res.ok_bind]; rfl,
      by simp only [AOp.runSS, SS.divAssign, h2, k2, Res.ok_bind],
      ((h.map.scale hσ _).into hσ ho ho' _ (fun k => hσ.accO k _) hb).obj _⟩

omit [DecidableEq V] in
theorem asgS_scaled (hσ : Scales σ) (o : AOp) {x x' : SS α} (h : SOScaled σ x x') (s : α) :
    ∃ r r', o.runSSs x s = .ok r ∧ o.runSSs x' s = .ok r' ∧ SOScaled σ r r' := by
  obtain ⟨v, h1, h2⟩ := h.f
  cases o with
  | add => exact ⟨_, _, by simp only [AOp.runSSs, SS.addAssignS, h1, Res.ok_bind]; rfl,
      by simp only [AOp.runSSs, SS.addAssignS, h2, Res.ok_bind], h.map.obj _⟩
  | sub => exact ⟨_, _, by simp only [AOp.runSSs, SS.subAssignS, h1, Res.ok_bind]; rfl,
      by simp only [AOp.runSSs, SS.subAssignS, h2, Res.ok_bind], h.map.obj _⟩
  | mul => exact ⟨_, _, by simp only [AOp.runSSs, SS.mulAssignS, h1, Res.ok_bind]; rfl,
      by simp only [AOp.runSSs, SS.mulAssignS, h2, Res.ok_bind],
      (h.map.self _ fun k v => (hσ.mulL k v _).symm).obj _⟩
  | div => exact ⟨_, _, by simp only [AOp.runSSs, SS.divAssignS, SS.mulAssignS, h1, Res.ok_bind]; rfl,
      by simp only [AOp.runSSs, SS.divAssignS, SS.mulAssignS, h2, Res.ok_bind],
      (h.map.self _ fun k v => (hσ.mulL k v _).symm).obj _⟩

omit [DecidableEq V] in
theorem evalSS_scaled (hσ : Scales σ) {ord ord' : Order α} (ho : ord.Ok) (ho' : ord'.Ok)
    {ρ ρ' : V → SS α}
    (h : ∀ v, SOScaled σ (ρ v) (ρ' v)) (e : Expr α V) :
    ∃ r r', e.evalSS ord ρ = .ok r ∧ e.evalSS ord' ρ' = .ok r' ∧ SOScaled σ r r' := by
  choose p p' h1 h2 h3 using h
  obtain ⟨r, k1, k2⟩ := evalSS_spec ho ρ p h1 e
  obtain ⟨r', k3, k4⟩ := evalSS_spec ho' ρ' p' h2 e
  exact ⟨r, r', k1, k3, _, _, k2, k4, Expr.evalV_scaled hσ h3 e⟩

theorem operand_scaled (hσ : Scales σ) {ord ord' : Order α} (ho : ord.Ok) (ho' : ord'.Ok)
    {ρ ρ' : SStore α V} (h : ∀ v, SOScaled σ (ρ v) (ρ' v)) (t : V) (e : Expr α V) :
    ∃ b b', ρ.operand ord t e = .ok b ∧ ρ'.operand ord' t e = .ok b' ∧ OperandScaled σ b b' := by
  obtain ⟨r, r', h1, h2, h3⟩ := evalSS_scaled hσ ho ho' h e
  cases e with
  | var s =>
    by_cases hs : s = t
    · exact ⟨.self, .self, by simp [SStore.operand, hs], by simp [SStore.operand, hs], trivial⟩
    · exact ⟨.obj (ρ s), .obj (ρ' s), by simp [SStore.operand, hs], by simp [SStore.operand, hs], h s⟩
  | _ => exact ⟨.obj r, .obj r', by simp only [SStore.operand, h1, Res.ok_bind],
      by simp only [SStore.operand, h2, Res.ok_bind], h3⟩

theorem sstep_scaled (hσ : Scales σ) {ord ord' : Order α} (ho : ord.Ok) (ho' : ord'.Ok)
    {ρ ρ' : SStore α V} (h : ∀ v, SOScaled σ (ρ v) (ρ' v)) (s : SStmt α V)
    (hs : (SCall.act s).NoSeeds) :
    ∃ τ τ', s.run ord ρ = (.ok (), τ) ∧ s.run ord' ρ' = (.ok (), τ') ∧ ∀ v, SOScaled σ (τ v) (τ' v) := by
  cases s with
  | assign t e =>
    obtain ⟨r, r', h1, h2, h3⟩ := evalSS_scaled hσ ho ho' h e
    cases e with
    | var s =>
      obtain ⟨p, p', k1, k2, k3⟩ := h s
      obtain ⟨r, k4, k5⟩ := is_copied ho k1
      obtain ⟨r', k6, k7⟩ := is_copied ho' k2
      exact put_scaled h t k4 k6 ⟨p, p', k5, k7, k3⟩
    | _ => exact put_scaled h t h1 h2 h3
  | vari t k s => exact hs.elim
  | make t s d => exact hs.elim
  | upd o t e =>
    obtain ⟨b, b', h1, h2, h3⟩ := operand_scaled hσ (ho.sub 1) (ho'.sub 1) h t e
    obtain ⟨r, r', h6, h7, h8⟩ := asg_scaled hσ (ho.sub 0) (ho'.sub 0) o (h t) h3
    exact put_scaled h t (by simp only [h1, Res.ok_bind, h6]) (by simp only [h2, Res.ok_bind, h7]) h8
  | updS o t s =>
    obtain ⟨r, r', h1, h2, h3⟩ := asgS_scaled hσ o (h t) s
    exact put_scaled h t h1 h2 h3

omit [DecidableEq V] in
theorem cond_scaled (hσ : Scales σ) {ord ord' : Order α} (ho : ord.Ok) (ho' : ord'.Ok)
    {ρ ρ' : SStore α V}
    (h : ∀ v, SOScaled σ (ρ v) (ρ' v)) (b : Cond α V) :
    ∃ r, b.runSS ord ρ = .ok r ∧ b.runSS ord' ρ' = .ok r := by
  have ev : ∀ {o o' : Order α}, o.Ok → o'.Ok → ∀ e : Expr α V, ∃ r r' v, e.evalSS o ρ = .ok r ∧
      e.evalSS o' ρ' = .ok r' ∧ r.f = .ok v ∧ r'.f = .ok v := by
    intro o o' ho ho' e
    obtain ⟨r, r', h1, h2, h3⟩ := evalSS_scaled hσ ho ho' h e
    obtain ⟨v, h4, h5⟩ := h3.f
    exact ⟨r, r', v, h1, h2, h4, h5⟩
  cases b with
  | cmp op e₁ e₂ =>
    obtain ⟨r, r', v, h1, h2, h3, h4⟩ := ev (ho.sub 0) (ho'.sub 0) e₁
    obtain ⟨q, q', w, k1, k2, k3, k4⟩ := ev (ho.sub 1) (ho'.sub 1) e₂
    exact ⟨op.scalar v w, by simp only [Cond.runSS, h1, k1, Res.ok_bind, SS.cmp, h3, k3],
      by simp only [Cond.runSS, h2, k2, Res.ok_bind, SS.cmp, h4, k4]⟩
  | cmpS op e s =>
    obtain ⟨r, r', v, h1, h2, h3, h4⟩ := ev ho ho' e
    exact ⟨op.scalar v s, by simp only [Cond.runSS, h1, Res.ok_bind, SS.cmpS, h3],
      by simp only [Cond.runSS, h2, Res.ok_bind, SS.cmpS, h4]⟩
  | sCmp op s e =>
    obtain ⟨r, r', v, h1, h2, h3, h4⟩ := ev ho ho' e
    exact ⟨(SS.mirror op).scalar v s, by simp only [Cond.runSS, h1, Res.ok_bind, SS.sCmp, SS.cmpS, h3],
      by simp only [Cond.runSS, h2, Res.ok_bind, SS.sCmp, SS.cmpS, h4]⟩

/-- **C92, sparse scalars.**  The same for `SScalar`, with a unit for each name: the code may also look at the
number of stored derivatives, the orders of the hash tables of the two runs may differ, and `x *= x` and
`x /= x` are included although their derivatives are wrong (C43). -/
theorem C92_sparse (hσ : Scales σ) (cl : Caller (SCall α V) (Answer α) Q)
    (hcl : ∀ q k, cl.next q = some k → k.NoSeeds) (q : Q) {ord ord' : Order α}
    (ho : ord.Ok) (ho' : ord'.Ok) (ρ ρ' : SStore α V) (h : ∀ v, SScaledBy σ (ρ v) (ρ' v)) (j : Nat) :
    (cl.run (ssLibrary α V) j q (ord, ρ) = none ∧ cl.run (ssLibrary α V) j q (ord', ρ') = none) ∨
    ∃ q' p p', cl.run (ssLibrary α V) j q (ord, ρ) = some (.ok q', p) ∧
      cl.run (ssLibrary α V) j q (ord', ρ') = some (.ok q', p') ∧ ∀ v, SScaledBy σ (p.2 v) (p'.2 v) := by
  obtain h | ⟨q', p, p', h1, h2, h3⟩ := Caller.lockstep (cl := cl) (L := ssLibrary α V)
    (L' := ssLibrary α V) (P := SCall.NoSeeds)
    (Rel := fun p p' => (p.1.Ok ∧ p'.1.Ok) ∧ ∀ v, SOScaled σ (p.2 v) (p'.2 v)) (by
      rintro k ⟨ord, ρ⟩ ⟨ord', ρ'⟩ hk ⟨⟨ho, ho'⟩, h⟩
      cases k with
      | act s =>
        obtain ⟨τ, τ', h1, h2, h3⟩ := sstep_scaled hσ (ho.sub 0) (ho'.sub 0) h s hk
        exact ⟨.done, (ord.sub 1, τ), (ord'.sub 1, τ'), by simp only [ssLibrary, h1, Answer.of],
          by simp only [ssLibrary, h2, Answer.of], ⟨ho.sub 1, ho'.sub 1⟩, h3⟩
      | ask b =>
        obtain ⟨r, h1, h2⟩ := cond_scaled hσ (ho.sub 2) (ho'.sub 2) h b
        exact ⟨.truth r, (ord, ρ), (ord', ρ'), by simp only [ssLibrary, h1, Answer.of],
          by simp only [ssLibrary, h2, Answer.of], ⟨ho, ho'⟩, h⟩
      | f v =>
        obtain ⟨w, h1, h2⟩ := (h v).f
        exact ⟨.number w, (ord, ρ), (ord', ρ'), by simp only [ssLibrary, h1, Answer.of],
          by simp only [ssLibrary, h2, Answer.of], ⟨ho, ho'⟩, h⟩
      | d v k => exact hk.elim
      | size v m =>
        exact ⟨.truth (decide ((ρ v).size = m)), (ord, ρ), (ord', ρ'), rfl,
          by simp only [ssLibrary, (h v).size], ⟨ho, ho'⟩, h⟩) hcl j q
    (st := (ord, ρ)) (st' := (ord', ρ')) ⟨⟨ho, ho'⟩, fun v => (h v).on⟩
  · exact Or.inl h
  · exact Or.inr ⟨q', p, p', h1, h2, fun v => (h3.2 v).same hσ⟩

end ops

end any

/-- Binary powering in `double`: the same with `-1` for the derivative of the variable. -/
example {ord ord' : Order (IEEE 53 1023)} (ho : ord.Ok) (ho' : ord'.Ok) (N j : Nat) (x : IEEE 53 1023) :
    ((exSPowers _).run (ssLibrary (IEEE 53 1023) (Fin 2)) j N
        (ord, ![SS.var ord "a" x, SS.constant ord (Arith.lit 1)]) = none ∧
      (exSPowers _).run (ssLibrary (IEEE 53 1023) (Fin 2)) j N
        (ord', ![SS.make ord' x [("a", -ₛ Arith.lit 1)], SS.constant ord' (Arith.lit 1)]) = none) ∨
    ∃ q' p p', (exSPowers _).run (ssLibrary (IEEE 53 1023) (Fin 2)) j N
        (ord, ![SS.var ord "a" x, SS.constant ord (Arith.lit 1)]) = some (.ok q', p) ∧
      (exSPowers _).run (ssLibrary (IEEE 53 1023) (Fin 2)) j N
        (ord', ![SS.make ord' x [("a", -ₛ Arith.lit 1)], SS.constant ord' (Arith.lit 1)]) =
          some (.ok q', p') ∧
      ∀ v, SScaledBy (flip fun k => k == "a") (p.2 v) (p'.2 v) := by
  have hσ := scales_ieee (p := 53) (emax := 1023) (fun k : String => k == "a")
  refine C92_sparse hσ (exSPowers _) (fun q k h => ?_) N ho ho' _ _ (fun v => SOScaled.same hσ ?_) j
  · simp only [exSPowers] at h
    split at h
    · cases h
    · split at h <;> cases h <;> trivial
  · match v with
    | 0 =>
      refine
        ⟨(x, fun k => if k = "a" then some (Arith.lit 1) else none),
          (x, SMap.find [("a", -ₛ Arith.lit 1)]), SS.is_var ho "a" x,
        SS.is_make ho' (m := [("a", -ₛ Arith.lit 1)]) (by simp [keys])
          (fun _ => rfl) x, rfl, fun k => ?_⟩
      dsimp only
      rw [find_cons, find_nil]
      by_cases h : k = "a"
      · simp [h, flip]
      · simp [h, Ne.symm h]
    | 1 =>
      exact ⟨(Arith.lit 1, _), (Arith.lit 1, _), SS.is_constant ho _, SS.is_constant ho' _, rfl,
        fun _ => rfl⟩

end HJ
