import Verif.Model.SS
import Verif.Proofs.Loop
import Mathlib.Data.List.Nodup
import Mathlib.Data.List.Perm.Basic

/-!
# Sparse scalars: what the map functions compute, name by name (helper lemmas)
-/

namespace HJ

variable {α V : Type}

theorem Order.Ok.sub {ord : Order α} (h : ord.Ok) (i : Nat) : (ord.sub i).Ok := fun p m => h (i :: p) m

namespace SMap

@[simp] theorem keys_cons (e : String × α) (m : SMap α) : keys (e :: m) = e.1 :: keys m := rfl
@[simp] theorem find_nil (k : String) : find ([] : SMap α) k = none := rfl
theorem find_cons (e : String × α) (m : SMap α) (k : String) :
    find (e :: m) k = if e.1 = k then some e.2 else find m k := by
  by_cases h : e.1 = k
  · simp [find, h]
  · simp [find, h]

theorem find_none {m : SMap α} {k : String} : find m k = none ↔ k ∉ keys m := by
  induction m with
  | nil => simp [keys]
  | cons e m ih =>
    rw [find_cons, keys_cons, List.mem_cons]
    by_cases h : e.1 = k
    · simp [h]
    · simp [h, ih, Ne.symm h]

theorem find_mem {m : SMap α} {k : String} {v : α} (hn : m.keys.Nodup) :
    find m k = some v ↔ (k, v) ∈ m := by
  induction m with
  | nil => simp
  | cons e m ih =>
    rw [keys_cons, List.nodup_cons] at hn
    rw [find_cons, List.mem_cons]
    by_cases h : e.1 = k
    · rw [if_pos h]
      constructor
      · intro h1; left; rw [← h, ← Option.some.inj h1]
      · rintro (h1 | h1)
        · rw [← h1]
        · exact absurd (List.mem_map_of_mem (f := Prod.fst) h1) (h ▸ hn.1)
    · rw [if_neg h, ih hn.2]
      constructor
      · exact Or.inr
      · rintro (h1 | h1)
        · exact absurd (by rw [← h1]) h
        · exact h1

theorem find_perm {m m' : SMap α} (hn : m.keys.Nodup) (h : m'.Perm m) (k : String) :
    find m' k = find m k := by
  have hn' : m'.keys.Nodup := (h.map Prod.fst).nodup_iff.mpr hn
  cases hf : find m k with
  | none =>
    rw [find_none] at hf ⊢
    exact fun hk => hf (((h.map Prod.fst).mem_iff).mp hk)
  | some v =>
    rw [find_mem hn] at hf
    rw [find_mem hn']
    exact h.mem_iff.mpr hf

theorem nodup_perm {m m' : SMap α} (hn : m.keys.Nodup) (h : m'.Perm m) : m'.keys.Nodup :=
  (h.map Prod.fst).nodup_iff.mpr hn

theorem keys_map (m : SMap α) (g : String × α → α) : keys (m.map fun e => (e.1, g e)) = keys m := by
  simp [keys, Function.comp_def]

theorem find_map (m : SMap α) (g : α → α) (k : String) :
    find (m.map fun e => (e.1, g e.2)) k = (find m k).map g := by
  induction m with
  | nil => rfl
  | cons e m ih =>
    rw [List.map_cons, find_cons, find_cons, ih]
    by_cases h : e.1 = k <;> simp [h]

theorem keys_modify (m : SMap α) (k : String) (g : α → α) : keys (modify m k g) = keys m := by
  unfold keys modify
  rw [List.map_map]
  apply List.map_congr_left
  intro e _
  simp only [Function.comp_apply]
  split <;> rfl

theorem find_modify (m : SMap α) (k j : String) (g : α → α) :
    find (modify m k g) j = if j = k then (find m j).map g else find m j := by
  unfold modify
  induction m with
  | nil => simp
  | cons e m ih =>
    rw [List.map_cons, find_cons, find_cons, ih]
    by_cases h : e.1 = k
    · by_cases hj : k = j
      · simp [h, hj]
      · simp [h, hj, Ne.symm hj]
    · by_cases hj : e.1 = j
      · have : j ≠ k := fun e' => h (hj.trans e')
        simp [hj, this]
      · simp [h, hj]

/-- What a `r[k] = g(v, r[k])` makes of an entry. -/
def step [Arith α] (g : α → α → α) (p q : Option α) : Option α :=
  match q with
  | none => p
  | some v => some (g v (p.getD (Arith.lit 0)))

theorem nodup_update [Arith α] {s : SMap α → SMap α} (hs : ∀ m, (s m).Perm m) {m : SMap α}
    (hn : m.keys.Nodup) (k : String) (g : α → α) : (update s m k g).keys.Nodup := by
  unfold update
  split
  · rw [keys_modify]; exact hn
  · next h =>
    apply nodup_perm _ (hs _)
    rw [keys_cons, List.nodup_cons]
    exact ⟨by simpa using h, hn⟩

theorem find_update [Arith α] {s : SMap α → SMap α} (hs : ∀ m, (s m).Perm m) {m : SMap α}
    (hn : m.keys.Nodup) (k j : String) (g : α → α) :
    find (update s m k g) j =
      if j = k then some (g ((find m k).getD (Arith.lit 0))) else find m j := by
  unfold update
  split
  · next h =>
    rw [find_modify]
    by_cases hj : j = k
    · rw [if_pos hj, if_pos hj, hj]
      cases hf : find m k with
      | none => rw [find_none] at hf; exact absurd (by simpa using h) hf
      | some v => rfl
    · rw [if_neg hj, if_neg hj]
  · next h =>
    have hk : k ∉ keys m := by simpa using h
    rw [find_perm _ (hs _), find_cons]
    · by_cases hj : j = k
      · rw [hj, if_pos rfl, if_pos rfl, find_none.mpr hk]; rfl
      · rw [if_neg (Ne.symm hj), if_neg hj]
    · rw [keys_cons, List.nodup_cons]
      exact ⟨hk, hn⟩

theorem accum_spec [Arith α] {ord : Order α} (ho : ord.Ok) (g : α → α → α) {r b : SMap α}
    (hr : r.keys.Nodup) (hb : b.keys.Nodup) :
    (accum ord g r b).keys.Nodup ∧
      ∀ k, find (accum ord g r b) k = step g (find r k) (find b k) := by
  induction b generalizing ord r with
  | nil => exact ⟨hr, fun k => rfl⟩
  | cons e b ih =>
    rw [keys_cons, List.nodup_cons] at hb
    have hs : ∀ m, (ord [0] m).Perm m := ho [0]
    obtain ⟨h1, h2⟩ := ih (ho.sub 1) (nodup_update hs hr e.1 (g e.2)) hb.2
    refine ⟨h1, fun k => ?_⟩
    unfold accum
    rw [h2, find_update hs hr, find_cons]
    by_cases hk : e.1 = k
    · have h0 : find b k = none := find_none.mpr (hk ▸ hb.1)
      rw [if_pos hk, if_pos hk.symm, h0, ← hk]; rfl
    · rw [if_neg hk, if_neg (Ne.symm hk)]

theorem accumSelf_keys (g : α → α → α) (m : SMap α) (l : List String) :
    keys (l.foldl (fun m k => modify m k fun w => g w w) m) = keys m := by
  induction l generalizing m with
  | nil => rfl
  | cons k l ih => rw [List.foldl_cons, ih, keys_modify]

theorem accumSelf_find (g : α → α → α) (m : SMap α) (l : List String) (hl : l.Nodup) (j : String) :
    find (l.foldl (fun m k => modify m k fun w => g w w) m) j =
      if j ∈ l then (find m j).map fun w => g w w else find m j := by
  induction l generalizing m with
  | nil => simp
  | cons k l ih =>
    rw [List.nodup_cons] at hl
    rw [List.foldl_cons, ih _ hl.2, find_modify]
    by_cases hj : j = k
    · subst hj; simp [hl.1]
    · simp [hj]

theorem accumSelf_spec (g : α → α → α) {m : SMap α} (hm : m.keys.Nodup) :
    (accumSelf g m).keys.Nodup ∧
      ∀ k, find (accumSelf g m) k = (find m k).map fun w => g w w := by
  unfold accumSelf
  refine ⟨by rw [accumSelf_keys]; exact hm, fun k => ?_⟩
  rw [accumSelf_find _ _ _ hm]
  by_cases hk : k ∈ keys m
  · rw [if_pos hk]
  · rw [if_neg hk, find_none.mpr hk]; rfl

end SMap

open SMap

/-- The object has value `v` and, name by name, the entries `L`. -/
structure SIs (x : SS α) (v : α) (L : String → Option α) : Prop where
  f : x.mF = some v
  nodup : x.mD.keys.Nodup
  look : ∀ k, x.mD.find k = L k

namespace SS

variable {x y z : SS α} {v w u : α} {L M N : String → Option α}

theorem f_ok (h : SIs x v L) : x.f = .ok v := by simp [f, h.f]

theorem d_eq [Arith α] (h : SIs x v L) (k : String) : x.d k = (L k).getD (Arith.lit 0) := by
  unfold d
  rw [h.look]
  cases L k <;> rfl

theorem is_copy {ord : Order α} (ho : ord.Ok) (h : SIs x v L) (p : List Nat) (v' : α) :
    SIs ⟨some v', ord p x.mD⟩ v' L :=
  ⟨rfl, nodup_perm h.nodup (ho _ _), fun k => by rw [← h.look]; exact find_perm h.nodup (ho _ _) k⟩

theorem is_make {ord : Order α} (ho : ord.Ok) {m : SMap α} (hm : m.keys.Nodup)
    (hl : ∀ k, m.find k = L k) (v : α) : SIs (make ord v m) v L :=
  is_copy (x := ⟨some v, m⟩) ho ⟨rfl, hm, hl⟩ [0] v

theorem is_constant {ord : Order α} (ho : ord.Ok) (v : α) : SIs (constant ord v) v fun _ => none :=
  is_make ho (by simp [keys]) (fun _ => rfl) v

theorem is_var [Arith α] {ord : Order α} (ho : ord.Ok) (name : String) (v : α) :
    SIs (var ord name v) v fun k => if k = name then some (Arith.lit 1) else none := by
  refine is_make ho (by simp [keys]) (fun k => ?_) v
  rw [find_cons]
  by_cases h : k = name
  · simp [h]
  · rw [if_neg (Ne.symm h), if_neg h, find_nil]

theorem is_unary [Arith α] {ord : Order α} (ho : ord.Ok) (h : SIs x v L) (da : α) :
    (unary ord x.mD da).keys.Nodup ∧
      ∀ k, (unary ord x.mD da).find k = (L k).map (· *ₛ da) := by
  have h0 := is_copy ho h [0] v
  unfold unary scale
  constructor
  · have := keys_map (ord [0] x.mD) fun e => e.2 *ₛ da
    rw [this]; exact h0.nodup
  · intro k
    rw [find_map _ fun e => e *ₛ da, h0.look]

theorem is_binary [Arith α] {ord : Order α} (ho : ord.Ok) (hx : SIs x v L) (hy : SIs y w M) (da db : α) :
    (binary ord x.mD y.mD da db).keys.Nodup ∧ ∀ k, (binary ord x.mD y.mD da db).find k =
      step (fun v w => w +ₛ db *ₛ v) ((L k).map (· *ₛ da)) (M k) := by
  have h1 := is_unary ho hx da
  have h2 := accum_spec (ho.sub 1) (fun v w => w +ₛ db *ₛ v) h1.1 hy.nodup
  refine ⟨h2.1, fun k => (h2.2 k).trans ?_⟩
  rw [h1.2, hy.look]

theorem is_ternary [Arith α] {ord : Order α} (ho : ord.Ok) (hx : SIs x v L) (hy : SIs y w M)
    (hz : SIs z u N) (da db dc : α) :
    (ternary ord x.mD y.mD z.mD da db dc).keys.Nodup ∧
      ∀ k, (ternary ord x.mD y.mD z.mD da db dc).find k =
        step (fun v w => w +ₛ dc *ₛ v)
          (step (fun v w => w +ₛ db *ₛ v) ((L k).map (· *ₛ da)) (M k)) (N k) := by
  have h1 := is_binary ho hx hy da db
  have h2 := accum_spec (ho.sub 2) (fun v w => w +ₛ dc *ₛ v) h1.1 hz.nodup
  refine ⟨h2.1, fun k => (h2.2 k).trans ?_⟩
  rw [h1.2, hz.look]

end SS

/-- What an expression computes: the value and the entries, name by name. -/
abbrev SVal (α : Type) := α × (String → Option α)

namespace SVal

/-- A unary method with coefficient function `k`. -/
def un [Arith α] (x : SVal α) (f da : α) : SVal α := (f, fun j => (x.2 j).map (· *ₛ da))

/-- A binary operation. -/
def bin [Arith α] (x y : SVal α) (f da db : α) : SVal α :=
  (f, fun j => step (fun v w => w +ₛ db *ₛ v) ((x.2 j).map (· *ₛ da)) (y.2 j))

/-- A ternary operation. -/
def tern [Arith α] (x y z : SVal α) (f da db dc : α) : SVal α :=
  (f, fun j => step (fun v w => w +ₛ dc *ₛ v)
    (step (fun v w => w +ₛ db *ₛ v) ((x.2 j).map (· *ₛ da)) (y.2 j)) (z.2 j))

/-- Negation. -/
def neg [Arith α] (x : SVal α) : SVal α := (-ₛ x.1, fun j => (x.2 j).map fun w => -ₛ w)

end SVal

/-- Two-operand operations name by name. -/
def Bin.val [CMath α] (o : Bin) (x y : SVal α) : SVal α :=
  match o with
  | .add => x.bin y (x.1 +ₛ y.1) (Arith.lit 1) (Arith.lit 1)
  | .sub => x.bin y (x.1 -ₛ y.1) (Arith.lit 1) (Arith.lit (-1))
  | .mul => x.bin y (x.1 *ₛ y.1) y.1 x.1
  | .div => x.bin y (x.1 *ₛ (Arith.lit 1 ÷ₛ y.1)) (Arith.lit 1 ÷ₛ y.1)
      (-ₛ x.1 ÷ₛ Arith.powN y.1 2)
  | .atan2 => x.bin y (CMath.atan2 x.1 y.1) (y.1 ÷ₛ (x.1 *ₛ x.1 +ₛ y.1 *ₛ y.1))
      (-ₛ x.1 ÷ₛ (x.1 *ₛ x.1 +ₛ y.1 *ₛ y.1))
  | .hypot => x.bin y (CMath.hypot x.1 y.1) (x.1 ÷ₛ CMath.hypot x.1 y.1)
      (y.1 ÷ₛ CMath.hypot x.1 y.1)

/-- Operations with a scalar name by name. -/
def SBin.val [Arith α] (o : SBin) (x : SVal α) (s : α) : SVal α :=
  match o with
  | .addS => (x.1 +ₛ s, x.2)
  | .sAdd => (x.1 +ₛ s, x.2)
  | .subS => (x.1 +ₛ -ₛ s, x.2)
  | .sSub => (-ₛ x.1 +ₛ s, x.neg.2)
  | .mulS => x.un (x.1 *ₛ s) s
  | .sMul => x.un (x.1 *ₛ s) s
  | .divS => x.un (x.1 *ₛ (Arith.lit 1 ÷ₛ s)) (Arith.lit 1 ÷ₛ s)
  | .sDiv => x.un (s ÷ₛ x.1) (-ₛ s ÷ₛ Arith.powN x.1 2)

/-- Expressions name by name. -/
def Expr.evalV [CMath α] (ρ : V → SVal α) : Expr α V → SVal α
  | .var v => ρ v
  | .const s => (s, fun _ => none)
  | .neg e => (e.evalV ρ).neg
  | .abs e => if Cmp.ltB (e.evalV ρ).1 (Arith.lit 0) then (e.evalV ρ).neg else e.evalV ρ
  | .fn φ e => (e.evalV ρ).un (φ.coefS (e.evalV ρ).1).1 (φ.coefS (e.evalV ρ).1).2
  | .bin o e₁ e₂ => o.val (e₁.evalV ρ) (e₂.evalV ρ)
  | .sbin o e s => o.val (e.evalV ρ) s
  | .hypot3 e₁ e₂ e₃ =>
    let f := CMath.hypot3 (e₁.evalV ρ).1 (e₂.evalV ρ).1 (e₃.evalV ρ).1
    (e₁.evalV ρ).tern (e₂.evalV ρ) (e₃.evalV ρ) f ((e₁.evalV ρ).1 ÷ₛ f) ((e₂.evalV ρ).1 ÷ₛ f)
      ((e₃.evalV ρ).1 ÷ₛ f)

/-- The object shows the value. -/
abbrev SIsV (x : SS α) (p : SVal α) : Prop := SIs x p.1 p.2

theorem SS.neg_spec [Arith α] {ord : Order α} (ho : ord.Ok) {x : SS α} {p : SVal α}
    (h : SIsV x p) : ∃ r, x.neg ord = .ok r ∧ SIsV r p.neg := by
  refine ⟨_, by simp only [SS.neg, SS.f_ok h, Res.ok_bind]; rfl, rfl, ?_, fun k => ?_⟩
  · have h0 := SS.is_copy ho h [0] p.1
    have := keys_map (ord [0] x.mD) fun e => -ₛ e.2
    rw [this]; exact h0.nodup
  · have h0 := SS.is_copy ho h [0] p.1
    rw [find_map _ fun e => -ₛ e, h0.look]; rfl

theorem SS.un_spec [Arith α] {ord : Order α} (ho : ord.Ok) {x : SS α} {p : SVal α}
    (h : SIsV x p) (k : α → α × α) :
    ∃ r, x.un ord k = .ok r ∧ SIsV r (p.un (k p.1).1 (k p.1).2) := by
  have hu := SS.is_unary (ho.sub 1) h (k p.1).2
  exact ⟨_, by simp only [SS.un, SS.f_ok h, Res.ok_bind]; rfl, SS.is_make (ho.sub 0) hu.1 hu.2 _⟩

theorem Bin.spec [CMath α] {ord : Order α} (ho : ord.Ok) (o : Bin) {x y : SS α} {p q : SVal α}
    (hx : SIsV x p) (hy : SIsV y q) : ∃ r, o.runS ord x y = .ok r ∧ SIsV r (o.val p q) := by
  cases o <;>
  · refine ⟨_, by
      simp only [Bin.runS, SS.add, SS.sub, SS.mul, SS.div, SS.atan2, SS.hypot, SS.f_ok hx,
        SS.f_ok hy, Res.ok_bind]; rfl, ?_⟩
    exact SS.is_make (ho.sub 0) (SS.is_binary (ho.sub 1) hx hy _ _).1
      (SS.is_binary (ho.sub 1) hx hy _ _).2 _

theorem SBin.spec [Arith α] {ord : Order α} (ho : ord.Ok) (o : SBin) {x : SS α} {p : SVal α}
    (hx : SIsV x p) (s : α) : ∃ r, o.runS ord x s = .ok r ∧ SIsV r (o.val p s) := by
  have hadd : ∀ t, ∃ r, x.addS ord t = .ok r ∧ SIsV r (p.1 +ₛ t, p.2) := fun t =>
    ⟨_, by simp only [SS.addS, SS.f_ok hx, Res.ok_bind], SS.is_copy ho hx [0] _⟩
  have hmul : ∀ t, ∃ r, x.mulS ord t = .ok r ∧ SIsV r (p.un (p.1 *ₛ t) t) := fun t =>
    ⟨⟨some (p.1 *ₛ t), SS.unary ord x.mD t⟩, by simp only [SS.mulS, SS.f_ok hx, Res.ok_bind]; rfl,
      rfl, (SS.is_unary ho hx t).1, (SS.is_unary ho hx t).2⟩
  cases o with
  | addS => exact hadd s
  | sAdd => exact hadd s
  | subS => exact hadd _
  | sSub =>
    obtain ⟨r, h1, h2⟩ := SS.neg_spec ho hx
    exact ⟨⟨some (p.neg.1 +ₛ s), r.mD⟩,
      by simp only [SBin.runS, SS.sSub, h1, Res.ok_bind, SS.f_ok h2], rfl, h2.nodup, h2.look⟩
  | mulS => exact hmul s
  | sMul => exact hmul s
  | divS => exact hmul _
  | sDiv =>
    have hu := SS.is_unary (ho.sub 1) hx (-ₛ s ÷ₛ Arith.powN p.1 2)
    exact ⟨_, by simp only [SBin.runS, SS.sDiv, SS.f_ok hx, Res.ok_bind]; rfl,
      SS.is_make (ho.sub 0) hu.1 hu.2 _⟩

/-- Evaluation ends normally with what `evalV` says. -/
theorem evalSS_spec [CMath α] {ord : Order α} (ho : ord.Ok) (ρ : V → SS α) (p : V → SVal α)
    (hρ : ∀ v, SIsV (ρ v) (p v)) (e : Expr α V) :
    ∃ r, e.evalSS ord ρ = .ok r ∧ SIsV r (e.evalV p) := by
  induction e generalizing ord with
  | var v => exact ⟨_, rfl, hρ v⟩
  | const s => exact ⟨_, rfl, SS.is_constant ho s⟩
  | neg e ih =>
    obtain ⟨x, h1, h2⟩ := ih (ho.sub 1)
    obtain ⟨r, h3, h4⟩ := SS.neg_spec (ho.sub 0) h2
    exact ⟨r, by simp only [Expr.evalSS, h1, Res.ok_bind, h3], h4⟩
  | abs e ih =>
    obtain ⟨x, h1, h2⟩ := ih (ho.sub 1)
    simp only [Expr.evalSS, h1, Res.ok_bind, SS.abs, SS.f_ok h2, Expr.evalV]
    split
    · exact SS.neg_spec (ho.sub 0) h2
    · refine ⟨_, rfl, h2.f, ?_, ?_⟩
      · exact (SS.is_copy (ho.sub 0) h2 [0] (e.evalV p).1).nodup
      · exact (SS.is_copy (ho.sub 0) h2 [0] (e.evalV p).1).look
  | fn φ e ih =>
    obtain ⟨x, h1, h2⟩ := ih (ho.sub 1)
    obtain ⟨r, h3, h4⟩ := SS.un_spec (ho.sub 0) h2 φ.coefS
    exact ⟨r, by simp only [Expr.evalSS, h1, Res.ok_bind, h3], h4⟩
  | bin o e₁ e₂ ih₁ ih₂ =>
    obtain ⟨x, h1, h2⟩ := ih₁ (ho.sub 1)
    obtain ⟨y, k1, k2⟩ := ih₂ (ho.sub 2)
    obtain ⟨r, h3, h4⟩ := o.spec (ho.sub 0) h2 k2
    exact ⟨r, by simp only [Expr.evalSS, h1, k1, Res.ok_bind, h3], h4⟩
  | sbin o e s ih =>
    obtain ⟨x, h1, h2⟩ := ih (ho.sub 1)
    obtain ⟨r, h3, h4⟩ := o.spec (ho.sub 0) h2 s
    exact ⟨r, by simp only [Expr.evalSS, h1, Res.ok_bind, h3], h4⟩
  | hypot3 e₁ e₂ e₃ ih₁ ih₂ ih₃ =>
    obtain ⟨x, h1, h2⟩ := ih₁ (ho.sub 1)
    obtain ⟨y, k1, k2⟩ := ih₂ (ho.sub 2)
    obtain ⟨z, l1, l2⟩ := ih₃ (ho.sub 3)
    refine ⟨_, by simp only [Expr.evalSS, h1, k1, l1, Res.ok_bind, SS.hypot3, SS.f_ok h2,
      SS.f_ok k2, SS.f_ok l2]; rfl, ?_⟩
    exact SS.is_make ((ho.sub 0).sub 0) (SS.is_ternary ((ho.sub 0).sub 1) h2 k2 l2 _ _ _).1
      (SS.is_ternary ((ho.sub 0).sub 1) h2 k2 l2 _ _ _).2 _

/-- Objects with the same entries have the same size. -/
theorem size_eq_of_look {m m' : SMap α} (h : m.keys.Nodup) (h' : m'.keys.Nodup)
    (hl : ∀ k, m.find k = m'.find k) : m.length = m'.length := by
  have hp : m.keys.Perm m'.keys := (List.perm_ext_iff_of_nodup h h').mpr fun k => by
    have := hl k
    by_cases hk : k ∈ m.keys
    · have h1 : m'.find k ≠ none := by rw [← this]; exact fun e => find_none.mp e hk
      simp only [hk, true_iff]
      by_contra hc
      exact h1 (find_none.mpr hc)
    · have h1 : m'.find k = none := by rw [← this]; exact find_none.mpr hk
      simp only [hk, false_iff]
      exact find_none.mp h1
  simpa [keys] using hp.length_eq

end HJ
