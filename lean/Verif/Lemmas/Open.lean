import Verif.Lemmas.DictReg
import Verif.Model.Open
/-
Opening the file of a pool.
-/
namespace BX
open XBT Spec

theorem field_ok {f : Img} {a : Nat} {v : Int} (h : Has f.mem a (le32 v)) (hv : isI32 v) : f.field a = v := by
  unfold Img.field
  have h4 : slice f.mem a 4 = le32 v := by
    have := h; unfold Has at this; rwa [le32_length] at this
  rw [h4]
  unfold le32 isI32 INT_MIN INT_MAX at *
  rw [rdN_leN, Nat.mod_eq_of_lt (by simpa using toU_lt 32 v)]
  rw [ofU_toU 32 (by omega) v (by omega) (by omega)]

theorem encTab_length (T : Tab16) : (encTab T).length = 16 := by simp [encTab]
theorem header_length (P : Pool) : P.header.length = 92 := by
  have h : poolIdent.length = 21 := by decide
  simp [Pool.header, encTab_length, h]

/-- the pool of a file has the same memory behind the header -/
theorem file_mem (P : Pool) (i : Nat) (h : 92 ≤ i) : P.file.mem i = P.mem i := by
  unfold Pool.file memPut
  simp only
  rw [if_neg (by rw [header_length]; omega)]

theorem file_has (P : Pool) : Has P.file.mem 0 P.header := Has.self _ _ _

/-- the fields of the header -/
theorem file_fields (P : Pool) : Has P.file.mem 4 (poolIdent ++ [0]) ∧ Has P.file.mem 28 (le32 0) ∧ Has P.file.mem 32 (le32 P.fileSize) ∧ Has P.file.mem 36 (le32 P.mmapSize) ∧
    Has P.file.mem 44 (le32 P.root) ∧ Has P.file.mem 52 (le32 P.alloc) ∧ Has P.file.mem 56 (le32 P.limit) ∧ Has P.file.mem 60 (encTab P.tags) ∧ Has P.file.mem 76 (encTab P.params) := by
  have h := file_has P
  have hl : poolIdent.length = 21 := by decide
  unfold Pool.header at h
  simp only [Has.append, List.length_append, le32_length, encTab_length, hl, List.length_cons, List.length_nil] at h
  obtain ⟨⟨⟨⟨⟨⟨⟨⟨⟨⟨⟨-, a1⟩, a2⟩, a3⟩, a4⟩, -⟩, a5⟩, -⟩, a6⟩, a7⟩, a8⟩, a9⟩ := h
  have e : ([0, 0, 0] : List UInt8) = [0] ++ [0, 0] := rfl
  rw [e, Has.append] at a1
  refine ⟨?_, a2, a3, a4, a5, a6, a7, a8, a9⟩
  rw [Has.append]
  exact ⟨a1.1, by rw [hl]; exact a1.2.1⟩

theorem tab16_ok {f : Img} {a : Nat} {T : Tab16} (h : Has f.mem a (encTab T)) (h1 : isI32 T.maxId) (h2 : T.names < 2147483648) (h3 : T.index < 2147483648) : f.tab16 a = some T := by
  unfold encTab at h
  simp only [Has.append, List.length_append, le32_length] at h
  obtain ⟨⟨⟨a1, a2⟩, a3⟩, a4⟩ := h
  unfold Img.tab16
  rw [field_ok a1 h1, field_ok a2 (isI32_of_lt h2), field_ok (a := a + 8) a3 (isI32_of_lt h3), field_ok (a := a + 12) a4 (by split <;> decide)]
  rw [if_neg (by omega)]
  cases T with
  | mk m n i b => cases b <;> simp

/-- a good index is accepted -/
theorem checkLoop_ok {P : Pool} (hP : PoolOk P) (hsm : P.mmapSize < 2147483648) {T : Tab16} {l : List Sym} (h : TabOk P T l) (hi : T.index ≠ 0) :
    ∀ n i, i + n = l.length → P.checkLoop T (symsLen l) n i = .ok true
  | 0, _, _ => rfl
  | n+1, i, hn => by
    have hlt : i < l.length := by omega
    obtain ⟨i1, i2, i3, i4⟩ := h.index hi
    obtain ⟨n1, n2, n3, n4⟩ := h.names i1
    have hsz := hP.size
    have hmp := hP.map
    have hrec := encSyms_get l P.mem T.names 0 i hlt n4
    have hge : T.names ≤ recAt T.names l i := by unfold recAt; omega
    have hlen := recLen_ge l[i]
    unfold Pool.checkLoop
    rw [Img.i32_ok (f := P.img) (encIdx_get l P.mem T.names T.index i i4 hlt) (by show _ ≤ P.fileSize; omega) (isI32_of_lt (by omega)) (T.index + 4 * i) (by omega), Out.ok_bind]
    rw [if_pos (by omega)]
    exact checkLoop_ok hP hsm h hi n (i + 1) (by omega)

theorem checkIndex_ok {P : Pool} (hP : PoolOk P) (hsm : P.mmapSize < 2147483648) {b : Bool} {l : List Sym} (h : TabOk P (P.tab b) l) : P.checkIndex b = .ok P := by
  unfold Pool.checkIndex Pool.checkTab
  by_cases hi : (P.tab b).index = 0
  · rw [if_pos hi]; rfl
  · rw [if_neg hi, namesSize_ok hP h, Out.ok_bind]
    simp only [setTab_self]
    rw [checkLoop_ok hP hsm h hi _ 0 (by rw [h.max]; omega)]; rfl

/-- the file of a good pool is opened as that pool -/
theorem openFile_ok {E : Env} {n : Nat} {P : Pool} {L : Bool → List Sym} (hP : PoolOk P) (hsm : P.mmapSize < 2147483648) (h : ∀ b, TabOk P (P.tab b) (L b)) (hr : P.root < 2147483648) :
    openFile E false n P.file = .ok (some ⟨{ P with mem := P.file.mem }, true, 0⟩) := by
  obtain ⟨a1, a2, a3, a4, a5, a6, a7, a8, a9⟩ := file_fields P
  have p1 := hP.head; have p2 := hP.le; have p3 := hP.lim; have p4 := hP.map
  have hh : poolHeader = 92 := rfl
  have hsz : P.file.size = P.fileSize := rfl
  have f28 := field_ok a2 (by decide)
  have f32 := field_ok a3 (isI32_of_lt (by omega))
  have f36 := field_ok a4 (isI32_of_lt (by omega))
  have f44 := field_ok a5 (isI32_of_lt (by omega))
  have f52 := field_ok a6 (isI32_of_lt (by omega))
  have f56 := field_ok a7 (isI32_of_lt (by omega))
  have rng : ∀ b, isI32 (P.tab b).maxId ∧ (P.tab b).names < 2147483648 ∧ (P.tab b).index < 2147483648 := by
    intro b
    have hb := h b
    refine ⟨?_, ?_, ?_⟩
    · have := hb.few
      rw [hb.max]; unfold isI32 INT_MIN INT_MAX; omega
    · by_cases hn : (P.tab b).names = 0
      · omega
      · have := hb.names hn; omega
    · by_cases hn : (P.tab b).index = 0
      · omega
      · have := hb.index hn; omega
  have t1 : P.file.tab16 60 = some P.tags := tab16_ok a8 (rng true).1 (rng true).2.1 (rng true).2.2
  have t2 : P.file.tab16 76 = some P.params := tab16_ok a9 (rng false).1 (rng false).2.1 (rng false).2.2
  unfold openFile
  rw [if_neg (by omega), f36, if_neg (by omega), if_neg (by simp), Int.toNat_natCast]
  unfold checkExisting
  have hid : slice P.file.mem 4 22 = poolIdent ++ [0] := a1
  rw [f28, f32, f44, f52, f56, hid, if_neg (by simp; omega), if_neg (by omega), t1, t2]
  simp only [Int.toNat_natCast]
  have hQ : PoolOk { P with mem := P.file.mem } := ⟨hP.head, hP.al, hP.le, hP.lim, hP.map, hP.page⟩
  have hT : ∀ b, TabOk { P with mem := P.file.mem } (({ P with mem := P.file.mem } : Pool).tab b) (L b) := by
    intro b
    have e : ({ P with mem := P.file.mem } : Pool).tab b = P.tab b := rfl
    rw [e]
    exact (h b).frame (Nat.le_refl _) fun i hi => file_mem P i (by have := ((h b).lt hi).1; omega)
  rw [hsz, checkIndex_ok (P := { P with mem := P.file.mem }) hQ hsm (hT true), Out.ok_bind, checkIndex_ok (P := { P with mem := P.file.mem }) hQ hsm (hT false)]
  rfl

end BX
