import Verif.Proofs.EvalC

/-!
# Factories in closed form (helper lemmas)
-/

namespace HJ

variable {α : Type} [Arith α]

/-- Contents of `variable(i, v, n)`. -/
def varC (i : Nat) (v : α) (k : Nat) : α :=
  if k = 0 then v else if k = 1 + i then Arith.lit 1 else Arith.lit 0

omit [Arith α] in
theorem setG_obj {c : Cfg} {n : Nat} (hf : Fits c n) (a : Nat → α) {i : Nat} (hi : i < n) (v : α) :
    (obj c n a).setG c i v = .ok (obj c n (fun k => if k = 1 + i then v else a k)) := by
  unfold DD.setG assertB
  have hlt : 1 + i < dlen c n := by unfold dlen; split_ifs <;> omega
  have h1 : decide ((i : Int) < (obj c n a).size c) = true := by
    rw [size_obj hf]; simpa using hi
  simp only [h1, Bool.not_true, Bool.and_false, Bool.false_eq_true, if_false, Res.ok_bind]
  rw [data_obj, wr_mk (ψ := fl (fun k => if k = 1 + i then v else a k)) (1 + i) (by push_cast; rfl) hlt]
  · rfl
  · intro m _; by_cases h : m = 1 + i <;> simp [fl, h]

theorem var_obj {c : Cfg} {n : Nat} (hf : Fits c n) {i : Nat} (hi : i < n) (v : α) :
    DD.var c i v n = .ok (obj c n (varC i v)) := by
  have key : ∀ x : DD α, x = obj c n (fun _ => Arith.lit 0) →
      (do let r ← x.setF v; r.setG c i (Arith.lit 1)) = .ok (obj c n (varC i v)) := by
    rintro x rfl
    rw [setF_obj]
    simp only [Res.ok_bind]
    rw [setG_obj hf _ hi]
    congr 1
    apply obj_ext
    intro k _
    unfold varC
    by_cases h0 : k = 0
    · subst h0; simp [show ¬ (0 = 1 + i) by omega]
    · simp [h0]
  unfold DD.var
  cases hd : c.isDynamic
  · simp only [Bool.false_eq_true, if_false, checkValidSize_fits hf, Res.ok_bind]
    exact key _ (zero0_obj hf hd)
  · simp only [if_true, zero_obj hf, Res.ok_bind]
    exact key _ rfl

theorem variables_obj {c : Cfg} {vals : List α} (hf : Fits c vals.length) :
    DD.variables c vals =
      .ok (vals.zipIdx.map fun p => obj c vals.length (varC p.2 p.1)) := by
  unfold DD.variables
  have hassert : (if !c.isDynamic then assertB c (((vals.length : Nat) : Int) == c.tsize)
      else pure PUnit.unit) = .ok () := by
    cases hd : c.isDynamic
    · simp [assertB, hf.static hd]
    · rfl
  simp only [Int.toNat_natCast]
  have hb : ∀ (k : Res (List (DD α))), (do
      if !c.isDynamic then assertB c (((vals.length : Nat) : Int) == c.tsize)
      k) = k := by
    intro k
    cases hd : c.isDynamic
    · simp [assertB, hf.static hd]
    · simp
  rw [hb]
  have := forUp_eq' (lo := 0) (hi := vals.length)
    (st := fun m => (vals.zipIdx.take m).map (fun p => obj c vals.length (varC p.2 p.1)) ++
      List.replicate (vals.length - m) (DD.default c))
    (body := fun i vars => do
      let v ← DD.rdVal vals i
      let x ← DD.var c i v vals.length
      DD.wrObj vars i x) (zlo := 0) (zhi := vals.length)
    (s := List.replicate vals.length (DD.default c)) rfl rfl (by simp) (Nat.zero_le _) (by
      intro i _ hi
      have hr : DD.rdVal vals (i : Int) = .ok vals[i] := by
        unfold DD.rdVal
        rw [if_neg (by omega), Int.toNat_natCast, List.getElem?_eq_getElem hi]
      simp only [hr, Res.ok_bind]
      rw [var_obj hf hi]
      simp only [Res.ok_bind]
      unfold DD.wrObj
      rw [if_neg (by simp; omega)]
      congr 1
      simp only [Int.toNat_natCast]
      have hlz : i < vals.zipIdx.length := by simpa using hi
      rw [List.take_add_one, List.getElem?_eq_getElem hlz]
      simp only [List.getElem_zipIdx, Option.toList_some, List.map_append, List.map_cons, List.map_nil,
        List.append_assoc, Nat.zero_add]
      rw [List.set_append_right _ _ (by simp)]
      congr 1
      have e : i - (List.map (fun p => obj c vals.length (varC p.2 p.1))
          (List.take i vals.zipIdx)).length = 0 := by simp; omega
      rw [e]
      have e2 : vals.length - i = (vals.length - (i + 1)) + 1 := by omega
      rw [e2, List.replicate_succ]
      rfl)
  rw [this]
  congr 1
  simp [List.take_of_length_le]

end HJ
