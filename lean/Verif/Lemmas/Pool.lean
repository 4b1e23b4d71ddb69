import Verif.Lemmas.StoreNode
import Verif.Spec.Alloc
/-
Lemmas about the pool of a writable document: allocation.
-/
namespace BX
open XBT Spec

/-- what always holds of a pool: the header fields fit together -/
structure PoolOk (P : Pool) : Prop where
  head : poolHeader ≤ P.alloc
  al : P.alloc % 4 = 0
  le : P.alloc ≤ P.limit
  lim : P.limit = P.fileSize
  map : P.fileSize ≤ P.mmapSize
  page : P.fileSize % 4096 = 0

/-- what changes when a block is allocated at `o`: the memory of the block is cleared, the allocator moves behind it -/
structure Alloced (P Q : Pool) (o : Nat) (n : Nat) : Prop where
  lo : P.alloc ≤ o
  hi : o + n ≤ Q.alloc
  zero : ∀ i, o ≤ i → i < Q.alloc → Q.mem i = 0
  keep : ∀ i, i < o → Q.mem i = P.mem i
  up : P.fileSize ≤ Q.fileSize
  same : Q.mmapSize = P.mmapSize ∧ Q.root = P.root ∧ Q.tags = P.tags ∧ Q.params = P.params

theorem memPut_zeros {m : Mem} {a n i : Nat} (h1 : a ≤ i) (h2 : i < a + n) : memPut m a (List.replicate n 0) i = 0 := by
  unfold memPut
  rw [if_pos (by simp; omega), List.getD_eq_getElem?_getD, List.getElem?_replicate, if_pos (by omega)]
  rfl

theorem allocate_spec {P Q : Pool} (hP : PoolOk P) {size : Int} {r : Option Nat} (h : P.allocate size = .ok (Q, r)) :
    (r = none ∧ Q = P) ∨ (∃ o, r = some o ∧ o = P.alloc ∧ 0 < size ∧ Alloced P Q o size.toNat ∧ PoolOk Q ∧ Q.fileSize = P.fileSize ∧ Q.alloc = o + aa size.toNat) := by
  unfold Pool.allocate at h
  split at h
  · simp only [Out.ok.injEq, Prod.mk.injEq] at h
    exact Or.inl ⟨h.2.symm, h.1.symm⟩
  · split at h
    · cases h
    · simp only at h
      split at h
      · cases h
      · split at h
        · simp only [Out.ok.injEq, Prod.mk.injEq] at h
          exact Or.inl ⟨h.2.symm, h.1.symm⟩
        · obtain ⟨m, h1, h2⟩ := Out.bind_eq_ok h
          simp only [Out.pure_eq, Out.ok.injEq, Prod.mk.injEq] at h2
          obtain ⟨rfl, rfl⟩ := h2
          obtain ⟨rfl, h3⟩ := put_ok h1
          obtain ⟨p1, p2, p3, p4, p5, p6⟩ := hP
          have := aa_ge size.toNat
          have := aa_mod size.toNat
          refine Or.inr ⟨_, rfl, rfl, by omega, ⟨Nat.le_refl _, by simp only; omega, ?_, ?_, Nat.le_refl _, rfl, rfl, rfl, rfl⟩, ⟨?_, ?_, ?_, p4, p5, p6⟩, rfl, rfl⟩
          · intro i i1 i2
            exact memPut_zeros i1 i2
          · intro i hi
            exact memPut_frame _ _ _ _ (Or.inl hi)
          · simp only; omega
          · simp only; omega
          · simp only; omega

theorem allocate8_spec {P Q : Pool} (hP : PoolOk P) {size : Int} {r : Option Nat} (h : P.allocate8 size = .ok (Q, r)) :
    (r = none ∧ (Q = P ∨ (Q = { P with alloc := aa8 P.alloc } ∧ (aa8 P.alloc ≤ P.limit → P.limit < aa8 P.alloc + aa8 size.toNat)))) ∨
    (∃ o, r = some o ∧ o = aa8 P.alloc ∧ 0 < size ∧ Alloced P Q o size.toNat ∧ PoolOk Q ∧ Q.fileSize = P.fileSize ∧ Q.alloc = o + aa8 size.toNat) := by
  unfold Pool.allocate8 at h
  split at h
  · simp only [Out.ok.injEq, Prod.mk.injEq] at h
    exact Or.inl ⟨h.2.symm, Or.inl h.1.symm⟩
  · split at h
    · cases h
    · simp only at h
      split at h
      · cases h
      · split at h
        · rename_i hlim
          simp only [Out.ok.injEq, Prod.mk.injEq] at h
          exact Or.inl ⟨h.2.symm, Or.inr ⟨h.1.symm, fun _ => hlim⟩⟩
        · obtain ⟨m, h1, h2⟩ := Out.bind_eq_ok h
          simp only [Out.pure_eq, Out.ok.injEq, Prod.mk.injEq] at h2
          obtain ⟨rfl, rfl⟩ := h2
          obtain ⟨rfl, h3⟩ := put_ok h1
          obtain ⟨p1, p2, p3, p4, p5, p6⟩ := hP
          have := aa8_ge size.toNat
          have := aa8_mod size.toNat
          have := aa8_ge P.alloc
          have := aa8_mod P.alloc
          refine Or.inr ⟨_, rfl, rfl, by omega, ⟨by omega, by simp only; omega, ?_, ?_, Nat.le_refl _, rfl, rfl, rfl, rfl⟩, ⟨?_, ?_, ?_, p4, p5, p6⟩, rfl, rfl⟩
          · intro i i1 i2
            exact memPut_zeros i1 i2
          · intro i hi
            exact memPut_frame _ _ _ _ (Or.inl hi)
          · simp only; omega
          · simp only; omega
          · simp only; omega

theorem aa8_page {a n : Nat} (h : a ≤ n) (hn : n % 4096 = 0) : aa8 a ≤ n := by
  unfold aa8; omega

theorem makeSpace_spec {E : Env} {P Q : Pool} (hP : PoolOk P) {size : Nat} {r : Bool} (h : P.makeSpace E size = .ok (Q, r)) :
    PoolOk Q ∧ P.fileSize ≤ Q.fileSize ∧ Q.alloc = P.alloc ∧ Q.mmapSize = P.mmapSize ∧ Q.root = P.root ∧ Q.tags = P.tags ∧ Q.params = P.params ∧
      (∀ i, i < P.fileSize → Q.mem i = P.mem i) ∧ (r = true → P.alloc + size ≤ Q.fileSize) ∧ (r = false → Q = P) := by
  unfold Pool.makeSpace at h
  split at h
  · cases h
  · simp only at h
    split at h
    · simp only [Out.ok.injEq, Prod.mk.injEq] at h
      obtain ⟨rfl, rfl⟩ := h
      exact ⟨hP, Nat.le_refl _, rfl, rfl, rfl, rfl, rfl, fun _ _ => rfl, by simp, by simp⟩
    · split at h
      · simp only [Out.ok.injEq, Prod.mk.injEq] at h
        obtain ⟨rfl, rfl⟩ := h
        exact ⟨hP, Nat.le_refl _, rfl, rfl, rfl, rfl, rfl, fun _ _ => rfl, fun _ => by omega, by simp⟩
      · split at h
        · simp only [Out.ok.injEq, Prod.mk.injEq] at h
          obtain ⟨rfl, rfl⟩ := h
          exact ⟨hP, Nat.le_refl _, rfl, rfl, rfl, rfl, rfl, fun _ _ => rfl, by simp, by simp⟩
        · simp only [Out.ok.injEq, Prod.mk.injEq] at h
          obtain ⟨rfl, rfl⟩ := h
          obtain ⟨p1, p2, p3, p4, p5, p6⟩ := hP
          refine ⟨⟨p1, p2, ?_, rfl, ?_, ?_⟩, ?_, rfl, rfl, rfl, rfl, rfl, ?_, ?_, by simp⟩
          · simp only; omega
          · simp only; omega
          · simp only; omega
          · simp only; omega
          · intro i hi
            simp only
            rw [if_neg (by omega)]
          · intro _
            simp only; omega

theorem AllocOp.run_spec {E : Env} {P Q : Pool} (hP : PoolOk P) {op : AllocOp} {r : Option Nat} (h : op.run E P = .ok (Q, r)) :
    PoolOk Q ∧ P.alloc ≤ Q.alloc ∧ P.fileSize ≤ Q.fileSize ∧ Q.mmapSize = P.mmapSize ∧ (Q.root = P.root ∧ Q.tags = P.tags ∧ Q.params = P.params) ∧ (∀ i, i < P.alloc → Q.mem i = P.mem i) ∧
      (∀ o, r = some o → P.alloc ≤ o ∧ o % op.align = 0 ∧ 0 < op.size ∧ o + op.size.toNat ≤ Q.alloc ∧ ∀ i, o ≤ i → i < Q.alloc → Q.mem i = 0) := by
  have hP' := hP
  obtain ⟨p1, p2, p3, p4, p5, p6⟩ := hP
  cases op with
  | four n =>
    rcases allocate_spec hP' h with ⟨rfl, rfl⟩ | ⟨o, rfl, h1, h2, h3, h4, h5, h6⟩
    · exact ⟨hP', Nat.le_refl _, Nat.le_refl _, rfl, ⟨rfl, rfl, rfl⟩, fun _ _ => rfl, by simp⟩
    · refine ⟨h4, by have := h3.lo; have := h3.hi; omega, h3.up, h3.same.1, h3.same.2, fun i hi => h3.keep i (by omega), ?_⟩
      rintro _ ⟨⟩
      exact ⟨h3.lo, by unfold AllocOp.align; simp only; omega, h2, h3.hi, h3.zero⟩
  | eight n =>
    rcases allocate8_spec hP' h with ⟨rfl, rfl | ⟨rfl, -⟩⟩ | ⟨o, rfl, h1, h2, h3, h4, h5, h6⟩
    · exact ⟨hP', Nat.le_refl _, Nat.le_refl _, rfl, ⟨rfl, rfl, rfl⟩, fun _ _ => rfl, by simp⟩
    · have := aa8_ge P.alloc
      have := aa8_mod P.alloc
      have : aa8 P.alloc ≤ P.limit := aa8_page p3 (by omega)
      exact ⟨⟨by simp only; omega, by simp only; omega, by simp only; omega, p4, p5, p6⟩, this |> fun _ => aa8_ge _, Nat.le_refl _, rfl, ⟨rfl, rfl, rfl⟩, fun _ _ => rfl, by simp⟩
    · refine ⟨h4, by have := h3.lo; have := h3.hi; omega, h3.up, h3.same.1, h3.same.2, fun i hi => h3.keep i (by have := h3.lo; omega), ?_⟩
      rintro _ ⟨⟩
      exact ⟨h3.lo, by subst h1; exact aa8_mod _, h2, h3.hi, h3.zero⟩
  | space n =>
    obtain ⟨⟨q, b⟩, h1, h2⟩ := Out.bind_eq_ok h
    simp only [Out.pure_eq, Out.ok.injEq, Prod.mk.injEq] at h2
    obtain ⟨rfl, rfl⟩ := h2
    obtain ⟨s1, s2, s3, s4, s6, s7, s8, s5, -⟩ := makeSpace_spec hP' h1
    exact ⟨s1, by omega, s2, s4, ⟨s6, s7, s8⟩, fun i hi => s5 i (by omega), by simp⟩

theorem empty_ok {maxSize : Nat} (h : 0x4000 ≤ maxSize) : PoolOk (Pool.empty maxSize) :=
  by
  refine ⟨?_, ?_, ?_, rfl, h, ?_⟩
  · show 92 ≤ 92; decide
  · show 92 % 4 = 0; decide
  · show 92 ≤ 0x4000; decide
  · show 0x4000 % 4096 = 0; decide

theorem allocate_eq {P : Pool} {n : Nat} (h0 : 0 < n) (h1 : (n : Int) + 3 ≤ INT_MAX) (h2 : ((P.alloc + aa n : Nat) : Int) ≤ INT_MAX) (h3 : P.alloc + aa n ≤ P.limit) (h4 : P.limit ≤ P.fileSize) :
    P.allocate n = .ok ({ P with mem := memPut P.mem P.alloc (List.replicate (aa n) 0), alloc := P.alloc + aa n }, some P.alloc) := by
  unfold Pool.allocate
  rw [if_neg (by omega), if_neg (by omega), Int.toNat_natCast]
  simp only
  rw [if_neg (by omega), if_neg (by omega), put_eq (by simp; omega)]
  rfl

theorem allocate_none {P : Pool} {n : Nat} (h1 : (n : Int) + 3 ≤ INT_MAX) (h2 : ((P.alloc + aa n : Nat) : Int) ≤ INT_MAX) (h3 : P.limit < P.alloc + aa n) :
    P.allocate n = .ok (P, none) := by
  unfold Pool.allocate
  split
  · rfl
  · rw [if_neg (by omega), Int.toNat_natCast]
    simp only
    rw [if_neg (by omega), if_pos h3]

theorem allocate8_eq {P : Pool} {n : Nat} (h0 : 0 < n) (h1 : (n : Int) + 7 ≤ INT_MAX) (h1' : (P.alloc : Int) + 7 ≤ INT_MAX) (h2 : ((aa8 P.alloc + aa8 n : Nat) : Int) ≤ INT_MAX)
    (h3 : aa8 P.alloc + aa8 n ≤ P.limit) (h4 : P.limit ≤ P.fileSize) :
    P.allocate8 n = .ok ({ P with mem := memPut P.mem (aa8 P.alloc) (List.replicate (aa8 n) 0), alloc := aa8 P.alloc + aa8 n }, some (aa8 P.alloc)) := by
  unfold Pool.allocate8
  rw [if_neg (by omega), if_neg (by omega), Int.toNat_natCast]
  simp only
  rw [if_neg (by omega), if_neg (by omega), put_eq (by simp; omega)]
  rfl

theorem allocate8_none {P : Pool} {n : Nat} (h0 : 0 < n) (h1 : (n : Int) + 7 ≤ INT_MAX) (h1' : (P.alloc : Int) + 7 ≤ INT_MAX) (h2 : ((aa8 P.alloc + aa8 n : Nat) : Int) ≤ INT_MAX)
    (h3 : P.limit < aa8 P.alloc + aa8 n) : P.allocate8 n = .ok ({ P with alloc := aa8 P.alloc }, none) := by
  unfold Pool.allocate8
  rw [if_neg (by omega), if_neg (by omega), Int.toNat_natCast]
  simp only
  rw [if_neg (by omega), if_pos h3]

theorem makeSpace_eq {E : Env} {P : Pool} {n : Nat} (h0 : ((P.alloc + 4095 + n : Nat) : Int) ≤ INT_MAX) (h1 : (P.alloc + 4095 + n) / 4096 * 4096 ≤ P.mmapSize)
    (h2 : P.fileSize < (P.alloc + 4095 + n) / 4096 * 4096) (h3 : E.trunc ((P.alloc + 4095 + n) / 4096 * 4096) = true) :
    P.makeSpace E n = .ok ({ P with mem := fun i => if P.fileSize ≤ i ∧ i < (P.alloc + 4095 + n) / 4096 * 4096 then 0 else P.mem i, fileSize := (P.alloc + 4095 + n) / 4096 * 4096, limit := (P.alloc + 4095 + n) / 4096 * 4096 }, true) := by
  unfold Pool.makeSpace
  rw [if_neg (by omega)]
  simp only
  rw [if_neg (by omega), if_neg (by omega), if_neg (by rw [h3]; simp)]

end BX
