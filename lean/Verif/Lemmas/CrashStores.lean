import Verif.Lemmas.CrashMake
import Verif.Lemmas.Sees
/-
Making an element store by store.
-/
namespace BX
open XBT

theorem memPut_app (m : Mem) (a : Nat) (x y : List UInt8) : memPut m a (x ++ y) = memPut (memPut m a x) (a + x.length) y := by
  funext i
  unfold memPut
  by_cases h1 : a + x.length ≤ i ∧ i < a + x.length + y.length
  · rw [if_pos (by simp; omega), if_pos h1, List.getD_eq_getElem?_getD, List.getD_eq_getElem?_getD, List.getElem?_append_right (by omega)]
    congr 2; omega
  · rw [if_neg h1]
    by_cases h2 : a ≤ i ∧ i < a + x.length
    · rw [if_pos (by simp; omega), if_pos h2, List.getD_eq_getElem?_getD, List.getD_eq_getElem?_getD, List.getElem?_append_left (by omega)]
    · rw [if_neg (by simp; omega), if_neg h2]

theorem memPut_comm (m : Mem) {a b : Nat} {x y : List UInt8} (h : a + x.length ≤ b ∨ b + y.length ≤ a) : memPut (memPut m a x) b y = memPut (memPut m b y) a x := by
  funext i
  unfold memPut
  by_cases h1 : a ≤ i ∧ i < a + x.length
  · rw [if_pos h1, if_pos h1, if_neg (by omega)]
  · rw [if_neg h1, if_neg h1]

theorem Pool.wr_mem {Q : Pool} (m : Mem) {a : Nat} {bs : List UInt8} (n : Nat) (hn : bs.length = n) (h : a + n ≤ Q.fileSize) (A : Int) (hA : A = a) :
    Pool.wr { Q with mem := m } A bs = .ok { Q with mem := memPut m a bs } :=
  Pool.wr_eq (P := { Q with mem := m }) (by rw [hn]; exact h) A hA

/-- the stores of `init` -/
theorem init_stores {Q : Pool} {o : Nat} (h : o + 24 ≤ Q.fileSize) (id : Int) (t : XBT) (f : UInt8) :
    Q.stores [.word o o, .half (o + 4) id, .byte (o + 7) t.code, .byte (o + 6) f, .word (o + 8) o, .word (o + 12) o, .word (o + 16) 0, .word (o + 20) 0] = Q.initElem o id t f := by
  have hl : ∀ v, (le32 v).length = 4 := fun v => leN_length _ _
  have h2 : (leN 2 (toU 16 id)).length = 2 := leN_length _ _
  simp only [Pool.stores, Pool.store1]
  rw [Q.wr_eq (a := o) (by rw [hl]; omega) _ rfl, Out.ok_bind]
  rw [Pool.wr_mem (a := o + 4) _ 2 h2 (by omega) _ (by omega), Out.ok_bind]
  rw [Pool.wr_mem (a := o + 7) _ 1 rfl (by omega) _ (by omega), Out.ok_bind]
  rw [Pool.wr_mem (a := o + 6) _ 1 rfl (by omega) _ (by omega), Out.ok_bind]
  rw [Pool.wr_mem (a := o + 8) _ 4 (hl _) (by omega) _ (by omega), Out.ok_bind]
  rw [Pool.wr_mem (a := o + 12) _ 4 (hl _) (by omega) _ (by omega), Out.ok_bind]
  rw [Pool.wr_mem (a := o + 16) _ 4 (hl _) (by omega) _ (by omega), Out.ok_bind]
  rw [Pool.wr_mem (a := o + 20) _ 4 (hl _) (by omega) _ (by omega), Out.ok_bind]
  unfold Pool.initElem
  rw [Q.wr_eq (a := o) (by simp [hl]; omega) _ rfl]
  simp only [Out.ok.injEq]
  congr 1
  rw [show ([f, t.code] : List UInt8) = [f] ++ [t.code] from rfl]
  rw [memPut_app, memPut_app, memPut_app, memPut_app, ← List.append_assoc, memPut_app, memPut_app, memPut_app]
  simp only [List.length_append, hl, h2, List.length_singleton]
  rw [memPut_comm (a := o + 7) (b := o + 6) _ (Or.inr (by simp))]

theorem init_stores' {A : Pool} (m : Mem) {o : Nat} (h : o + 24 ≤ A.fileSize) (id : Int) (t : XBT) (f : UInt8) :
    Pool.stores { A with mem := m } [.word o o, .half (o + 4) id, .byte (o + 7) t.code, .byte (o + 6) f, .word (o + 8) o, .word (o + 12) o, .word (o + 16) 0, .word (o + 20) 0] =
      Pool.initElem { A with mem := m } o id t f := init_stores (Q := { A with mem := m }) h id t f

theorem alloc_stores {P : Pool} (hP : PoolOk P) (E : Env) {t : XBT} {size : Nat} (h0 : 24 ≤ size) (hr : P.Room t size) (hl : (P.limit : Int) < 2 ^ 31 - 64) :
    ∃ A, P.stores (P.allocStores t size).1 = .ok A ∧ P.allocGrow E t size = .ok (A, some (P.allocStores t size).2) ∧ (P.allocStores t size).2 + size ≤ A.fileSize := by
  have hal := hP.al
  have hlim := hP.lim
  have hle := hP.le
  have hm : INT_MAX = 2 ^ 31 - 1 := rfl
  unfold Pool.Room at hr
  unfold Pool.allocStores Pool.allocGrow Pool.allocFor
  by_cases h8 : xalign t = 8
  · rw [if_pos h8] at hr
    simp only [if_pos h8]
    unfold Pool.allocate8
    have hs : size ≤ aa8 size := by unfold aa8; omega
    have ha : P.alloc ≤ aa8 P.alloc := by unfold aa8; omega
    have hs' : aa8 size ≤ size + 7 := by unfold aa8; omega
    have ha' : aa8 P.alloc ≤ P.alloc + 7 := by unfold aa8; omega
    rw [if_neg (by omega), if_neg (by omega)]
    simp only [Int.toNat_natCast]
    rw [if_neg (by omega), if_neg (by omega)]
    have hp : aa8 P.alloc + (List.replicate (aa8 size) (0 : UInt8)).length ≤ P.fileSize := by rw [List.length_replicate]; omega
    rw [put_eq hp]
    simp only [Pool.stores, Pool.store1, Out.ok_bind, Out.pure_eq]
    rw [Pool.wr_eq (P := { P with alloc := aa8 P.alloc + aa8 size }) (a := aa8 P.alloc) hp _ rfl]
    exact ⟨_, rfl, rfl, by show aa8 P.alloc + size ≤ P.fileSize; omega⟩
  · rw [if_neg h8] at hr
    simp only [if_neg h8]
    unfold Pool.allocate
    have hs : size ≤ aa size := by unfold aa; omega
    have hs' : aa size ≤ size + 3 := by unfold aa; omega
    rw [if_neg (by omega), if_neg (by omega)]
    simp only [Int.toNat_natCast]
    rw [if_neg (by omega), if_neg (by omega)]
    have hp : P.alloc + (List.replicate (aa size) (0 : UInt8)).length ≤ P.fileSize := by rw [List.length_replicate]; omega
    rw [put_eq hp]
    simp only [Pool.stores, Pool.store1, Out.ok_bind, Out.pure_eq]
    rw [Pool.wr_eq (P := { P with alloc := P.alloc + aa size }) (a := P.alloc) hp _ rfl]
    exact ⟨_, rfl, rfl, by show P.alloc + size ≤ P.fileSize; omega⟩

/-- the stores of making an element are what making it does -/
theorem make_stores {P : Pool} (hP : PoolOk P) (E : Env) {id : Int} {t : XBT} {size off : Nat} {f : UInt8} {bs : List UInt8} (h0 : 0 ≤ size2 t size)
    (hr : P.Room t (24 + (size2 t size).toNat)) (hl : (P.limit : Int) < 2 ^ 31 - 64) :
    P.make E id t size f off bs = (P.stores (P.makeStores id t size f off bs) >>= fun Q => .ok (Q, some (P.allocStores t (24 + (size2 t size).toNat)).2)) := by
  obtain ⟨A, h1, h2, h3⟩ := alloc_stores hP E (by omega) hr hl
  unfold Pool.make Pool.newElement Pool.makeStores
  rw [if_neg (by omega), h2]
  simp only [Out.ok_bind]
  generalize ho : (P.allocStores t (24 + (size2 t size).toNat)).2 = o at *
  have hle : ∀ v, (le32 v).length = 4 := fun v => leN_length _ _
  rw [stores_append, stores_append, stores_append, stores_append, h1, Out.ok_bind]
  rw [A.wr_eq (a := o + 7) (by simp; omega) _ (by omega), Out.ok_bind]
  rw [Pool.wr_mem (a := o + 12) _ 4 (hle _) (by omega) _ (by omega), Out.ok_bind]
  rw [Pool.wr_mem (a := o + 8) _ 4 (hle _) (by omega) _ (by omega), Out.ok_bind]
  rw [Pool.wr_mem (a := o) _ 4 (hle _) (by omega) _ (by omega), Out.ok_bind]
  have e1 : A.stores [.byte (o + 7) t.code, .word (o + 12) o, .word (o + 8) o, .word o o] = .ok { A with mem := memPut (memPut (memPut (memPut A.mem (o + 7) [t.code]) (o + 12) (le32 o)) (o + 8) (le32 o)) o (le32 o) } := by
    simp only [Pool.stores, Pool.store1]
    rw [A.wr_eq (a := o + 7) (by simp; omega) _ (by omega), Out.ok_bind]
    rw [Pool.wr_mem (a := o + 12) _ 4 (hle _) (by omega) _ (by omega), Out.ok_bind]
    rw [Pool.wr_mem (a := o + 8) _ 4 (hle _) (by omega) _ (by omega), Out.ok_bind]
    rw [Pool.wr_mem (a := o) _ 4 (hle _) (by omega) _ (by omega), Out.ok_bind]
  rw [e1, Out.ok_bind]
  generalize memPut _ o (le32 o) = m
  have hb : ∀ B : Pool, B.stores [.bytes (o + 24 + off) bs] = B.wr (o + 24 + off) bs := fun B => by
    simp only [Pool.stores, Pool.store1]
    cases B.wr (o + 24 + off) bs <;> rfl
  by_cases hv : isVarsize t = true
  · simp only [if_pos hv]
    have e2 : Pool.stores { A with mem := m } [.word (o + 24) (size2 t size - 4)] = Pool.wr { A with mem := m } (o + 24) (le32 (size2 t size - 4)) := by
      simp only [Pool.stores, Pool.store1]
      cases Pool.wr { A with mem := m } (o + 24) (le32 (size2 t size - 4)) <;> rfl
    rw [e2]
    cases hw : Pool.wr { A with mem := m } (o + 24) (le32 (size2 t size - 4)) with
    | ok B =>
      obtain ⟨_, _, _, rfl⟩ := Pool.wr_ok hw
      simp only [Out.ok_bind, Out.pure_eq]
      rw [init_stores' _ (show o + 24 ≤ A.fileSize by omega)]
      cases hj : Pool.initElem _ o id t f with
      | ok K =>
        simp only [Out.ok_bind, hb]
      | fail => rfl
      | ub => rfl
    | fail => rfl
    | ub => rfl
  · simp only [if_neg hv, Out.ok_bind, Out.pure_eq]
    rw [show Pool.stores { A with mem := m } [] = .ok { A with mem := m } from rfl]
    simp only [Out.ok_bind]
    rw [init_stores' _ (show o + 24 ≤ A.fileSize by omega)]
    cases hj : Pool.initElem _ o id t f with
    | ok K =>
      simp only [Out.ok_bind, hb]
    | fail => rfl
    | ub => rfl

end BX
