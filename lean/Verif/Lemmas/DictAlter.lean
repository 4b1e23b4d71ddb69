import Verif.Lemmas.DictReg
import Verif.Model.Register
/-
Changing the type of a symbol.
-/
namespace BX
open XBT Spec

/-- the record of an identification is found, with or without an index -/
theorem recordOf_ok {P : Pool} (hP : PoolOk P) (hsm : P.mmapSize < 2147483648) {T : Tab16} {l : List Sym} (h : TabOk P T l) {i : Nat} (hlt : i < l.length) :
    P.recordOf T i = .ok (some (recAt T.names l i)) := by
  have hl : l ≠ [] := by rintro rfl; simp at hlt
  obtain ⟨n1, n2, n3, n4⟩ := h.names (h.some hl)
  have hsz := hP.size
  have hmp := hP.map
  have hfew := h.few
  have hrec := encSyms_get l P.mem T.names 0 i hlt n4
  have hlen := recLen_ge l[i]
  have hm := h.max
  unfold Pool.recordOf
  rw [if_neg (by omega)]
  by_cases hi : T.index = 0
  · rw [if_pos hi]
    have hroom := h.room (h.some hl)
    have := byIdSeq_ok (f := P.img) (maxId := T.maxId) hP.size l T.names 0 (P.alloc + 4) i n4 h.noNul n2 n3 (by omega) (by omega) hlt (by omega)
    rw [Nat.zero_add] at this
    rw [show ((0 : Nat) : Int) = 0 from rfl] at this
    exact this
  · rw [if_neg hi]
    obtain ⟨i1, i2, i3, i4⟩ := h.index hi
    rw [Img.i32_ok (f := P.img) (encIdx_get l P.mem T.names T.index i i4 hlt) (by show _ ≤ P.fileSize; omega) (isI32_of_lt (by omega)) (T.index + 4 * i) (by omega), Out.ok_bind, if_neg (by omega)]
    simp only [Out.pure_eq, Int.toNat_natCast]

theorem recordOf_out {P : Pool} {T : Tab16} {l : List Sym} (h : TabOk P T l) {id : Int} (hid : id < 0 ∨ l.length ≤ id) : P.recordOf T id = .ok none := by
  unfold Pool.recordOf
  rw [if_pos (by rw [h.max]; omega)]; rfl

/-- what `alter` does, exactly -/
theorem alter_eq {P : Pool} (hP : PoolOk P) (hsm : P.mmapSize < 2147483648) {b : Bool} {l : List Sym} (h : TabOk P (P.tab b) l) {i : Nat} (hlt : i < l.length) (t : XBT) :
    P.alter b i t = if t = LAST ∨ convertable l[i].type t ≠ .yes then .ok (P, false) else (P.wr (recAt (P.tab b).names l i + 2) [t.code]).bind fun Q => .ok (Q, true) := by
  have hl : l ≠ [] := by rintro rfl; simp at hlt
  obtain ⟨n1, n2, n3, n4⟩ := h.names (h.some hl)
  have hsz := hP.size
  have hfew := h.few
  have hrec := encSyms_get l P.mem (P.tab b).names 0 i hlt n4
  have hr := recAt_of (by omega) hrec.1
  have hlen := recLen_ge l[i]
  unfold Pool.alter
  by_cases ht : t = LAST
  · rw [if_pos ht, if_pos (Or.inl ht)]; rfl
  · rw [if_neg ht, recordOf_ok hP hsm h hlt, Out.ok_bind]
    simp only
    rw [Img.u8_ok (f := P.img) hr.ty (by show _ ≤ P.fileSize; omega) _ (by omega), Out.ok_bind, ofCode_code]
    simp only
    by_cases hc : convertable l[i].type t = .yes
    · rw [if_pos hc, if_neg (by simp [ht, hc])]; rfl
    · rw [if_neg hc, if_pos (Or.inr hc)]; rfl

theorem alter_out {P : Pool} {b : Bool} {l : List Sym} (h : TabOk P (P.tab b) l) {id : Int} (hid : id < 0 ∨ l.length ≤ id) (t : XBT) : P.alter b id t = .ok (P, false) := by
  unfold Pool.alter
  by_cases ht : t = LAST
  · rw [if_pos ht]; rfl
  · rw [if_neg ht, recordOf_out h hid]; rfl

theorem alter_spec {P Q : Pool} (hP : PoolOk P) (hsm : P.mmapSize < 2147483648) {b : Bool} {l : List Sym} (h : TabOk P (P.tab b) l)
    (hdis : ∀ i, inNames (P.tab b) l i → ¬ inIndex (P.tab b) l i) {id : Int} {t : XBT} (ho : P.alter b id t = .ok (Q, true)) :
    RegStep P Q b l (l.modify id.toNat fun s => { s with type := t }) ∧ Q.tab b = P.tab b := by
  by_cases hid : id < 0 ∨ l.length ≤ id
  · rw [alter_out h hid] at ho; simp at ho
  · obtain ⟨i, rfl⟩ : ∃ i : Nat, id = i := ⟨id.toNat, by omega⟩
    have hlt : i < l.length := by omega
    rw [alter_eq hP hsm h hlt] at ho
    split at ho
    · simp at ho
    · have hw : P.wr (recAt (P.tab b).names l i + 2) [t.code] = .ok Q := by
        revert ho
        cases P.wr (recAt (P.tab b).names l i + 2) [t.code] <;> simp [Out.bind]
      have hs : l = l.take i ++ l[i] :: l.drop (i + 1) := by
        rw [List.getElem_cons_drop, List.take_append_drop]
      have hm : (l.modify i fun s => { s with type := t }) = l.take i ++ (⟨l[i].name, t⟩ : Sym) :: l.drop (i + 1) := by
        rw [List.modify_eq_take_cons_drop hlt]
      rw [Int.toNat_natCast, hm]
      have h' := h
      have hd' := hdis
      rw [hs] at h' hd'
      have := retype_spec (u := t) hP h' hd' (A := recAt (P.tab b).names l i + 2) (by unfold recAt; push_cast; rfl) hw
      rw [← hs] at this
      exact this

end BX
