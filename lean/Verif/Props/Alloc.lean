import Verif.Lemmas.Pool
/-
Property C35: allocation in the pool of a writable document.
-/
namespace BX
open XBT Spec

theorem served_spec {E : Env} {P R : Pool} {ops : List AllocOp} {l : List (AllocOp × Nat)} (h : Served E P ops l R) : PoolOk P →
    PoolOk R ∧ P.alloc ≤ R.alloc ∧ R.mmapSize = P.mmapSize ∧ (∀ i, i < P.alloc → R.mem i = P.mem i) ∧
    (∀ b ∈ l, P.alloc ≤ b.2 ∧ b.2 % b.1.align = 0 ∧ 0 < b.1.size ∧ b.2 + b.1.size.toNat ≤ R.alloc ∧ (∀ i, b.2 ≤ i → i < b.2 + b.1.size.toNat → R.mem i = 0)) ∧
    l.Pairwise (fun a b => a.2 + a.1.size.toNat ≤ b.2) := by
  induction h with
  | nil P => exact fun hP => ⟨hP, Nat.le_refl _, rfl, fun _ _ => rfl, by simp, by simp⟩
  | @some P Q R op o ops l h1 _ ih =>
    intro hP
    obtain ⟨a1, a2, a3, a4, -, a5, a6⟩ := AllocOp.run_spec hP h1
    obtain ⟨b1, b2, b3, b4, b5, b6⟩ := a6 o rfl |> fun _ => ih a1
    obtain ⟨c1, c2, c3, c4, c5⟩ := a6 o rfl
    refine ⟨b1, by omega, by omega, fun i hi => by rw [b4 i (by omega), a5 i hi], ?_, ?_⟩
    · intro b hb
      rcases List.mem_cons.1 hb with rfl | hb
      · exact ⟨c1, c2, c3, by simp only; omega, fun i i1 i2 => by simp only at i1 i2; rw [b4 i (by omega), c5 i i1 (by omega)]⟩
      · obtain ⟨d1, d2⟩ := b5 b hb
        exact ⟨by omega, d2⟩
    · rw [List.pairwise_cons]
      refine ⟨fun b hb => ?_, b6⟩
      have := (b5 b hb).1
      simp only; omega
  | @none P Q R op ops l h1 _ ih =>
    intro hP
    obtain ⟨a1, a2, a3, a4, -, a5, a6⟩ := AllocOp.run_spec hP h1
    obtain ⟨b1, b2, b3, b4, b5, b6⟩ := ih a1
    refine ⟨b1, by omega, by omega, fun i hi => by rw [b4 i (by omega), a5 i hi], ?_, b6⟩
    intro b hb
    obtain ⟨d1, d2⟩ := b5 b hb
    exact ⟨by omega, d2⟩

/-- C35: in a fresh pool, after any sequence of requests (of any sizes, in any order, with the file growing or not), every block
obtained is aligned as requested, lies behind the header and within the file and the mapped memory, is filled with zeros, and ends
before any block obtained later begins. -/
theorem C35_blocks (E : Env) (maxSize : Nat) (hmax : 0x4000 ≤ maxSize) (ops : List AllocOp) (l : List (AllocOp × Nat)) (R : Pool)
    (h : Served E (Pool.empty maxSize) ops l R) :
    (∀ b ∈ l, b.2 % b.1.align = 0 ∧ 0 < b.1.size ∧ poolHeader ≤ b.2 ∧ b.2 + b.1.size.toNat ≤ R.fileSize ∧ R.fileSize ≤ maxSize ∧
      ∀ i, b.2 ≤ i → i < b.2 + b.1.size.toNat → R.mem i = 0) ∧
    l.Pairwise (fun a b => a.2 + a.1.size.toNat ≤ b.2) := by
  obtain ⟨b1, b2, b3, b4, b5, b6⟩ := served_spec h (empty_ok hmax)
  refine ⟨fun b hb => ?_, b6⟩
  obtain ⟨d1, d2, d3, d4, d5⟩ := b5 b hb
  obtain ⟨p1, p2, p3, p4, p5, p6⟩ := b1
  have : (Pool.empty maxSize).mmapSize = maxSize := rfl
  have : (Pool.empty maxSize).alloc = poolHeader := rfl
  exact ⟨d2, d3, by omega, by omega, by omega, d5⟩

theorem served_total (E : Env) (ops : List AllocOp) : ∀ P : Pool, PoolOk P → (∀ op ∈ ops, (P.mmapSize : Int) + op.size + 4096 ≤ INT_MAX) → (P.mmapSize : Int) + 4096 ≤ INT_MAX →
    ∃ l R, Served E P ops l R := by
  induction ops with
  | nil => exact fun P _ _ _ => ⟨[], P, .nil P⟩
  | cons op ops ih =>
    intro P hP hsz hm
    have hP' := hP
    obtain ⟨p1, p2, p3, p4, p5, p6⟩ := hP
    have h0 := hsz op (by simp)
    have hstep : ∃ Q r, op.run E P = .ok (Q, r) := by
      cases op with
      | four n =>
        simp only [AllocOp.size] at h0
        simp only [AllocOp.run, Pool.allocate]
        have := aa_lt n.toNat
        split
        · exact ⟨_, _, rfl⟩
        · rw [if_neg (by omega), if_neg (by omega)]
          split
          · exact ⟨_, _, rfl⟩
          · rw [put_eq (by simp; omega)]
            exact ⟨_, _, rfl⟩
      | eight n =>
        simp only [AllocOp.size] at h0
        simp only [AllocOp.run, Pool.allocate8]
        have := aa8_lt n.toNat
        have := aa8_lt P.alloc
        split
        · exact ⟨_, _, rfl⟩
        · rw [if_neg (by omega), if_neg (by omega)]
          split
          · exact ⟨_, _, rfl⟩
          · rw [put_eq (by simp; omega)]
            exact ⟨_, _, rfl⟩
      | space n =>
        simp only [AllocOp.size] at h0
        simp only [AllocOp.run, Pool.makeSpace]
        rw [if_neg (by omega)]
        split
        · exact ⟨_, _, rfl⟩
        · split
          · exact ⟨_, _, rfl⟩
          · split
            · exact ⟨_, _, rfl⟩
            · exact ⟨_, _, rfl⟩
    obtain ⟨Q, r, hr⟩ := hstep
    obtain ⟨a1, a2, a3, a4, -, a5, a6⟩ := AllocOp.run_spec hP' hr
    obtain ⟨l, R, hs⟩ := ih Q a1 (fun o ho => by rw [a4]; exact hsz o (by simp [ho])) (by rw [a4]; exact hm)
    cases r with
    | none => exact ⟨l, R, .none hr hs⟩
    | some o => exact ⟨_, R, .some hr hs⟩

/-- C35: as long as no request is so large that the sum with the size of the mapping leaves the range of `int`, every sequence of
requests is served or refused without undefined behaviour. -/
theorem C35_defined (E : Env) (maxSize : Nat) (hmax : 0x4000 ≤ maxSize) (ops : List AllocOp) (hs : ∀ op ∈ ops, (maxSize : Int) + op.size + 4096 ≤ INT_MAX)
    (hm : (maxSize : Int) + 4096 ≤ INT_MAX) : ∃ l R, Served E (Pool.empty maxSize) ops l R :=
  served_total E ops _ (empty_ok hmax) hs hm

/-- C35: a refused request for 4-byte aligned memory changes nothing at all … -/
theorem C35_refused (E : Env) (P Q : Pool) (hP : PoolOk P) (n : Int) (h : AllocOp.run E P (.four n) = .ok (Q, none)) : Q = P := by
  rcases allocate_spec hP h with ⟨-, rfl⟩ | ⟨o, h', -⟩
  · rfl
  · cases h'

/-- … one for 8-byte aligned memory changes nothing but the place of the next block, by less than eight bytes … -/
theorem C35_refused8_partial (E : Env) (P Q : Pool) (hP : PoolOk P) (n : Int) (h : AllocOp.run E P (.eight n) = .ok (Q, none)) :
    ∃ a, Q = { P with alloc := a } ∧ P.alloc ≤ a ∧ a < P.alloc + 8 := by
  rcases allocate8_spec hP h with ⟨-, rfl | ⟨rfl, -⟩⟩ | ⟨o, h', -⟩
  · exact ⟨Q.alloc, rfl, Nat.le_refl _, by omega⟩
  · exact ⟨_, rfl, aa8_ge _, aa8_lt _⟩
  · cases h'

/-- … but it does change that: four bytes of a fresh pool are lost by a request that is refused. -/
theorem C35_refused8_false : ∃ Q, AllocOp.run ⟨true, fun _ => true⟩ (Pool.empty 0x20000) (.eight 0x10000) = .ok (Q, none) ∧ Q.alloc = (Pool.empty 0x20000).alloc + 4 :=
  ⟨_, allocate8_none (by decide) (by decide) (by decide) (by decide) (by decide), by decide⟩

theorem space_run {E : Env} {P Q : Pool} {n : Nat} {b : Bool} (h : P.makeSpace E n = .ok (Q, b)) : AllocOp.run E P (.space n) = .ok (Q, none) := by
  simp only [AllocOp.run, h, Out.ok_bind, Out.pure_eq]

/-- a sequence of requests of all kinds, with the blocks obtained: the fourth request is refused, the fifth makes space for it -/
example : ∃ R, Served ⟨true, fun _ => true⟩ (Pool.empty 0x20000) [.four 5, .eight 8, .four 1, .four 0x5000, .space 0x5000, .four 0x5000]
    [(.four 5, 92), (.eight 8, 104), (.four 1, 112), (.four 0x5000, 116)] R := by
  exact ⟨_, .some (allocate_eq (by decide) (by decide) (by decide) (by decide) (by decide)) (.some (allocate8_eq (by decide) (by decide) (by decide) (by decide) (by decide) (by decide))
    (.some (allocate_eq (by decide) (by decide) (by decide) (by decide) (by decide)) (.none (allocate_none (by decide) (by decide) (by decide))
    (.none (space_run (makeSpace_eq (by decide) (by decide) (by decide) rfl)) (.some (allocate_eq (by decide) (by decide) (by decide) (by decide) (by decide)) (.nil _))))))⟩

end BX
