import Verif.Lemmas.Sees
/-
Making elements.
-/
namespace BX
open XBT Spec

/-- what is known when memory has been requested, given or not -/
structure Got (P Q : Pool) : Prop where
  ok : PoolOk Q
  mono : P.alloc ≤ Q.alloc
  file : P.fileSize ≤ Q.fileSize
  map : Q.mmapSize = P.mmapSize
  same : Q.root = P.root ∧ Q.tags = P.tags ∧ Q.params = P.params
  keep : ∀ i, i < P.alloc → Q.mem i = P.mem i

theorem Got.refl {P : Pool} (h : PoolOk P) : Got P P := ⟨h, Nat.le_refl _, Nat.le_refl _, rfl, ⟨rfl, rfl, rfl⟩, fun _ _ => rfl⟩
theorem Got.trans {P Q R : Pool} (h : Got P Q) (h' : Got Q R) : Got P R :=
  ⟨h'.ok, Nat.le_trans h.mono h'.mono, Nat.le_trans h.file h'.file, h'.map.trans h.map,
    ⟨h'.same.1.trans h.same.1, h'.same.2.1.trans h.same.2.1, h'.same.2.2.trans h.same.2.2⟩,
    fun i hi => (h'.keep i (Nat.lt_of_lt_of_le hi h.mono)).trans (h.keep i hi)⟩

theorem allocFor_spec {P Q : Pool} (hP : PoolOk P) {t : XBT} {size : Int} {r : Option Nat} (h : P.allocFor t size = .ok (Q, r)) :
    Got P Q ∧ ∀ o, r = some o → P.alloc ≤ o ∧ o % 4 = 0 ∧ (xalign t = 8 → o % 8 = 0) ∧ o + size.toNat ≤ Q.alloc := by
  unfold Pool.allocFor at h
  split at h
  · obtain ⟨a1, a2, a3, a4, a5, a6, a7⟩ := AllocOp.run_spec (E := ⟨true, fun _ => true⟩) (op := .eight size) hP h
    refine ⟨⟨a1, a2, a3, a4, a5, a6⟩, fun o ho => ?_⟩
    obtain ⟨b1, b2, b3, b4, -⟩ := a7 o ho
    have : o % 8 = 0 := b2
    exact ⟨b1, by omega, fun _ => this, b4⟩
  · rename_i hal
    obtain ⟨a1, a2, a3, a4, a5, a6, a7⟩ := AllocOp.run_spec (E := ⟨true, fun _ => true⟩) (op := .four size) hP h
    refine ⟨⟨a1, a2, a3, a4, a5, a6⟩, fun o ho => ?_⟩
    obtain ⟨b1, b2, b3, b4, -⟩ := a7 o ho
    exact ⟨b1, b2, fun h => absurd h hal, b4⟩

theorem makeSpace_got {E : Env} {P Q : Pool} (hP : PoolOk P) {size : Nat} {r : Bool} (h : P.makeSpace E size = .ok (Q, r)) : Got P Q := by
  obtain ⟨s1, s2, s3, s4, s6, s7, s8, s5, -⟩ := makeSpace_spec hP h
  have := hP.le
  have := hP.lim
  exact ⟨s1, by omega, s2, s4, ⟨s6, s7, s8⟩, fun i hi => s5 i (by omega)⟩

theorem allocGrow_spec {E : Env} {P Q : Pool} (hP : PoolOk P) {t : XBT} {size : Nat} {r : Option Nat} (h : P.allocGrow E t size = .ok (Q, r)) :
    Got P Q ∧ ∀ o, r = some o → P.alloc ≤ o ∧ o % 4 = 0 ∧ (xalign t = 8 → o % 8 = 0) ∧ o + size ≤ Q.alloc := by
  unfold Pool.allocGrow at h
  obtain ⟨⟨Q1, r1⟩, h1, h⟩ := Out.bind_eq_ok h
  obtain ⟨g1, g2⟩ := allocFor_spec hP h1
  cases r1 with
  | some o =>
    simp only [Out.pure_eq, Out.ok.injEq, Prod.mk.injEq] at h
    obtain ⟨rfl, rfl⟩ := h
    exact ⟨g1, fun o' ho' => by have := g2 o' ho'; rwa [Int.toNat_natCast] at this⟩
  | none =>
    simp only at h
    split at h
    · simp only [Out.pure_eq, Out.ok.injEq, Prod.mk.injEq] at h
      obtain ⟨rfl, rfl⟩ := h
      exact ⟨g1, by simp⟩
    · obtain ⟨⟨Q2, b⟩, h2, h⟩ := Out.bind_eq_ok h
      have g3 := makeSpace_got g1.ok h2
      simp only at h
      split at h
      · simp only [Out.pure_eq, Out.ok.injEq, Prod.mk.injEq] at h
        obtain ⟨rfl, rfl⟩ := h
        exact ⟨g1.trans g3, by simp⟩
      · obtain ⟨g4, g5⟩ := allocFor_spec g3.ok h
        refine ⟨(g1.trans g3).trans g4, fun o ho => ?_⟩
        obtain ⟨b1, b2, b3, b4⟩ := g5 o ho
        rw [Int.toNat_natCast] at b4
        have := (g1.trans g3).mono
        exact ⟨by omega, b2, b3, b4⟩

/-- a write behind the old end of the pool -/
theorem Got.wr {P Q R : Pool} (h : Got P Q) {A : Int} {bs : List UInt8} (hw : Q.wr A bs = .ok R) (hA : (P.alloc : Int) ≤ A) :
    Got P R ∧ R.alloc = Q.alloc ∧ R.fileSize = Q.fileSize := by
  obtain ⟨a, rfl, h1, rfl⟩ := Pool.wr_ok hw
  refine ⟨⟨h.ok.mem _, h.mono, h.file, h.map, h.same, fun i hi => ?_⟩, rfl, rfl⟩
  exact (memPut_frame _ _ _ _ (Or.inl (by omega))).trans (h.keep i hi)

theorem newElement_spec {E : Env} {P Q : Pool} (hP : PoolOk P) {t : XBT} {size : Nat} {r : Option Nat} (h : P.newElement E t size = .ok (Q, r)) :
    Got P Q ∧ ∀ o, r = some o → 0 ≤ size2 t size ∧ P.alloc ≤ o ∧ o % 4 = 0 ∧ (xalign t = 8 → o % 8 = 0) ∧ o + 24 + (size2 t size).toNat ≤ Q.alloc ∧
      (isVarsize t = true → Has Q.mem (o + 24) (le32 (size2 t size - 4))) := by
  unfold Pool.newElement at h
  split at h
  · simp only [Out.ok.injEq, Prod.mk.injEq] at h
    obtain ⟨rfl, rfl⟩ := h
    exact ⟨Got.refl hP, by simp⟩
  · rename_i hs
    obtain ⟨⟨Q1, r1⟩, h1, h⟩ := Out.bind_eq_ok h
    obtain ⟨g1, g2⟩ := allocGrow_spec hP h1
    cases r1 with
    | none =>
      simp only [Out.pure_eq, Out.ok.injEq, Prod.mk.injEq] at h
      obtain ⟨rfl, rfl⟩ := h
      exact ⟨g1, by simp⟩
    | some o =>
      simp only at h
      obtain ⟨b1, b2, b3, b4⟩ := g2 o rfl
      obtain ⟨P1, w1, h⟩ := Out.bind_eq_ok h
      obtain ⟨g1, e1, f1⟩ := g1.wr w1 (by omega)
      obtain ⟨P2, w2, h⟩ := Out.bind_eq_ok h
      obtain ⟨g1, e2, f2⟩ := g1.wr w2 (by omega)
      obtain ⟨P3, w3, h⟩ := Out.bind_eq_ok h
      obtain ⟨g1, e3, f3⟩ := g1.wr w3 (by omega)
      obtain ⟨P4, w4, h⟩ := Out.bind_eq_ok h
      obtain ⟨g1, e4, f4⟩ := g1.wr w4 (by omega)
      split at h
      · obtain ⟨P5, w5, h⟩ := Out.bind_eq_ok h
        obtain ⟨g1, e5, f5⟩ := g1.wr w5 (by omega)
        simp only [Out.pure_eq, Out.ok.injEq, Prod.mk.injEq] at h
        obtain ⟨rfl, rfl⟩ := h
        refine ⟨g1, ?_⟩
        rintro _ ⟨⟩
        refine ⟨by omega, b1, b2, b3, by omega, fun _ => ?_⟩
        obtain ⟨a, ha, -, rfl⟩ := Pool.wr_ok w5
        have : a = o + 24 := by omega
        subst this
        exact Has.self _ _ _
      · rename_i hv
        simp only [Out.pure_eq, Out.ok.injEq, Prod.mk.injEq] at h
        obtain ⟨rfl, rfl⟩ := h
        refine ⟨g1, ?_⟩
        rintro _ ⟨⟩
        exact ⟨by omega, b1, b2, b3, by omega, fun h' => absurd h' hv⟩

/-- the first 24 bytes of a fresh element -/
def elemBytes (o : Nat) (id : Int) (t : XBT) (flags : UInt8) : List UInt8 :=
  le32 o ++ leN 2 (toU 16 id) ++ [flags, t.code] ++ le32 o ++ le32 o ++ le32 0 ++ le32 0

theorem elemBytes_length (o : Nat) (id : Int) (t : XBT) (flags : UInt8) : (elemBytes o id t flags).length = 24 := by
  unfold elemBytes; simp [leN_length]

theorem make_spec {E : Env} {P Q : Pool} (hP : PoolOk P) {id : Int} {t : XBT} {size off : Nat} {fl : UInt8} {bs : List UInt8} {r : Option Nat}
    (h : P.make E id t size fl off bs = .ok (Q, r)) : Got P Q ∧ ∀ o, r = some o → 0 ≤ size2 t size ∧ P.alloc ≤ o ∧ o % 4 = 0 ∧ (xalign t = 8 → o % 8 = 0) ∧
      o + 24 + (size2 t size).toNat ≤ Q.alloc ∧ Has Q.mem o (elemBytes o id t fl) ∧ Has Q.mem (o + 24 + off) bs ∧
      (isVarsize t = true → 4 ≤ off → Has Q.mem (o + 24) (le32 (size2 t size - 4))) := by
  unfold Pool.make at h
  obtain ⟨⟨Q1, r1⟩, h1, h⟩ := Out.bind_eq_ok h
  obtain ⟨g1, g2⟩ := newElement_spec hP h1
  cases r1 with
  | none =>
    simp only [Out.pure_eq, Out.ok.injEq, Prod.mk.injEq] at h
    obtain ⟨rfl, rfl⟩ := h
    exact ⟨g1, by simp⟩
  | some o =>
    simp only at h
    obtain ⟨b0, b1, b2, b3, b4, b5⟩ := g2 o rfl
    obtain ⟨P1, w1, h⟩ := Out.bind_eq_ok h
    obtain ⟨g1, e1, f1⟩ := g1.wr w1 (by omega)
    obtain ⟨P2, w2, h⟩ := Out.bind_eq_ok h
    obtain ⟨g1, e2, f2⟩ := g1.wr w2 (by omega)
    simp only [Out.pure_eq, Out.ok.injEq, Prod.mk.injEq] at h
    obtain ⟨rfl, rfl⟩ := h
    refine ⟨g1, ?_⟩
    rintro _ ⟨⟩
    obtain ⟨a, ha, -, rfl⟩ := Pool.wr_ok w1
    obtain ⟨a', ha', -, rfl⟩ := Pool.wr_ok w2
    have : a = o := by omega
    subst this
    have : a' = a + 24 + off := by omega
    subst this
    have hl := elemBytes_length a id t fl
    refine ⟨b0, b1, b2, b3, by simp only; omega, ?_, Has.self _ _ _, fun hv h4 => ?_⟩
    · exact Has.frame (Has.self _ _ _) (by unfold elemBytes at hl; rw [hl]; omega)
    · have := (b5 hv)
      have hl4 : (le32 (size2 t size - 4)).length = 4 := by simp
      refine Has.frame (Has.frame this (Or.inr ?_)) (Or.inl ?_)
      · exact Nat.le_of_eq (congrArg _ hl)
      · omega

/-- the links after a fresh element has been made -/
def madeV (V : Nat → Nat → Nat) (o : Nat) : Nat → Nat → Nat := fun k x => if x = o then (if k = 8 ∨ k = 12 then o else 0) else V k x

theorem Sees.got {P Q : Pool} {els V fl} (h : Sees P els V fl) (g : Got P Q) : Sees Q els V fl := by
  refine ⟨g.ok, by rw [g.map]; exact h.small, fun e he => ?_, h.apart, fun e he => ?_, fun e he => ?_, fun e he k hk => ?_, h.bound⟩
  · have := h.range e he; have := g.mono; omega
  · have := h.range e he
    exact (h.off e he).congr fun i _ hi => g.keep i (by rw [show (le32 (e : Int)).length = 4 by simp] at hi; omega)
  · have := h.range e he
    exact (h.flag e he).congr fun i _ hi => g.keep i (by simp only [List.length_singleton] at hi; omega)
  · have := h.range e he
    have hk' := hk
    unfold IsPtr at hk'
    exact (h.ptr e he k hk).congr fun i _ hi => g.keep i (by rw [show (le32 ((V k e : Nat) : Int)).length = 4 by simp] at hi; omega)

theorem elemBytes_has {m : Mem} {o : Nat} {id : Int} {t : XBT} {fl : UInt8} (h : Has m o (elemBytes o id t fl)) :
    Has m o (le32 o) ∧ Has m (o + 4) (leN 2 (toU 16 id)) ∧ Has m (o + 6) [fl] ∧ Has m (o + 7) [t.code] ∧ ∀ k, IsPtr k → Has m (o + k) (le32 (if k = 8 ∨ k = 12 then o else 0 : Nat)) := by
  unfold elemBytes at h
  simp only [Has.append, List.length_append, leN_length, List.length_cons, List.length_nil, show ∀ v : Int, (le32 v).length = 4 from fun v => by simp] at h
  obtain ⟨⟨⟨⟨⟨⟨h1, h2⟩, h3⟩, h4⟩, h5⟩, h6⟩, h7⟩ := h
  have h3' : Has m (o + (4 + 2)) ([fl] ++ [t.code]) := h3
  rw [Has.append] at h3'
  refine ⟨h1, h2, h3'.1, h3'.2, ?_⟩
  rintro k (rfl | rfl | rfl | rfl)
  · exact h4
  · exact h5
  · exact h6
  · exact h7

/-- a fresh element -/
theorem Sees.plus {P Q : Pool} {els V fl} (h : Sees P els V fl) (g : Got P Q) {id : Int} {t : XBT} {f : UInt8} {o : Nat} (b1 : P.alloc ≤ o) (b4 : o + 24 ≤ Q.alloc)
    (b5 : Has Q.mem o (elemBytes o id t f)) : Sees Q (o :: els) (madeV V o) (fun y => if y = o then f else fl y) ∧ o ∉ els := by
  have s := h.got g
  have hne : ∀ e ∈ els, e + 24 ≤ o := fun e he => by have := h.range e he; omega
  have hno : o ∉ els := fun ho => by have := hne o ho; omega
  obtain ⟨c1, c2, c3, c4, c5⟩ := elemBytes_has b5
  have hlo := h.ok.head
  refine ⟨⟨s.ok, s.small, ?_, ?_, ?_, ?_, ?_, ?_⟩, hno⟩
  · intro e he
    rcases List.mem_cons.1 he with rfl | he
    · omega
    · exact s.range e he
  · intro e he e' he' hn
    rcases List.mem_cons.1 he with h1 | h1 <;> rcases List.mem_cons.1 he' with h2 | h2
    · exact absurd (h1.trans h2.symm) hn
    · rw [h1]; exact Or.inr (hne e' h2)
    · rw [h2]; exact Or.inl (hne e h1)
    · exact s.apart e h1 e' h2 hn
  · intro e he
    rcases List.mem_cons.1 he with rfl | he
    · exact c1
    · exact s.off e he
  · intro e he
    rcases List.mem_cons.1 he with rfl | he
    · rw [if_pos rfl]; exact c3
    · rw [if_neg (ne_of_mem_of_not_mem' he hno)]; exact s.flag e he
  · intro e he k hk
    unfold madeV
    rcases List.mem_cons.1 he with rfl | he
    · rw [if_pos rfl]; exact c5 k hk
    · rw [if_neg (ne_of_mem_of_not_mem' he hno)]; exact s.ptr e he k hk
  · intro e he k hk
    unfold madeV
    have := s.size
    rcases List.mem_cons.1 he with rfl | he
    · rw [if_pos rfl]; split <;> omega
    · rw [if_neg (ne_of_mem_of_not_mem' he hno)]; exact s.bound e he k hk

theorem made_sees {E : Env} {P Q : Pool} {els V fl} (h : Sees P els V fl) {id : Int} {t : XBT} {size off : Nat} {f : UInt8} {bs : List UInt8} {o : Nat}
    (hm : P.make E id t size f off bs = .ok (Q, some o)) : Sees Q (o :: els) (madeV V o) (fun y => if y = o then f else fl y) ∧ o ∉ els := by
  obtain ⟨g, g2⟩ := make_spec h.ok hm
  obtain ⟨b0, b1, b2, b3, b4, b5, b6, -⟩ := g2 o rfl
  exact h.plus g b1 (by omega) b5

end BX
