import Verif.Lemmas.DictOk
import Verif.Lemmas.DictReg
import Verif.Model.Register
/-
Registering a symbol with a given identification, and registering it by name.
-/
namespace BX
open XBT Spec

theorem allocate_setTab (P : Pool) (b : Bool) (T : Tab16) (n : Int) : (P.setTab b T).allocate n = (P.allocate n).bind fun r => .ok (r.1.setTab b T, r.2) := by
  unfold Pool.allocate
  simp only [setTab_alloc, setTab_limit, setTab_fileSize, setTab_mem]
  split
  · rfl
  · split
    · rfl
    · split
      · rfl
      · split
        · rfl
        · cases put P.fileSize P.mem P.alloc (List.replicate (aa n.toNat) 0) with
          | ok m => cases b <;> rfl
          | fail => rfl
          | ub => rfl

theorem allocate_tab {P Q : Pool} {n : Int} {o : Option Nat} (h : P.allocate n = .ok (Q, o)) (b : Bool) : Q.tab b = P.tab b := by
  unfold Pool.allocate at h
  split at h
  · cases h; rfl
  · split at h
    · cases h
    · simp only at h
      split at h
      · cases h
      · split at h
        · cases h; rfl
        · obtain ⟨m, -, h⟩ := Out.bind_eq_ok h
          cases h; cases b <;> rfl

theorem allocate_alloc {P Q : Pool} {n : Int} {o : Nat} (h : P.allocate n = .ok (Q, some o)) : o = P.alloc ∧ Q.alloc = P.alloc + aa n.toNat := by
  unfold Pool.allocate at h
  split at h
  · cases h
  · split at h
    · cases h
    · simp only at h
      split at h
      · cases h
      · split at h
        · cases h
        · obtain ⟨m, -, h⟩ := Out.bind_eq_ok h
          cases h; exact ⟨rfl, rfl⟩

theorem wr_alloc {P Q : Pool} {a : Int} {bs : List UInt8} (h : P.wr a bs = .ok Q) : Q.alloc = P.alloc := by
  unfold Pool.wr at h
  split at h
  · cases h
  · obtain ⟨m, -, h⟩ := Out.bind_eq_ok h
    cases h; rfl

/-- the assertion 2115 is never true -/
theorem addAt_tag {P Q : Pool} {id : Int} {name : BStr} {t : XBT} {r : Bool} (h : P.addAt true id name t = .ok (Q, r)) : r = false := by
  unfold Pool.addAt at h
  obtain ⟨⟨Q1, o⟩, h1, h⟩ := Out.bind_eq_ok h
  cases o with
  | none => cases h; rfl
  | some o =>
    obtain ⟨Q2, h2, h⟩ := Out.bind_eq_ok h
    simp only [Out.pure_eq, Out.ok.injEq, Prod.mk.injEq, if_true] at h
    obtain ⟨a1, a2⟩ := allocate_alloc h1
    have a3 := wr_alloc h2
    have e : ((3 : Int) + name.length + 1).toNat = 3 + name.length + 1 := by omega
    rw [e] at a2
    rw [← h.2, decide_eq_false]
    simp only at a1 a2 a3
    omega

theorem register_new_eq {P : Pool} (hP : PoolOk P) (hsm : P.mmapSize < 2147483648) {b : Bool} {l : List Sym} (h : TabOk P (P.tab b) l) (hl : l ≠ []) {name : BStr} {t : XBT} (hg : GoodName name)
    (hnew : ∀ s ∈ l, s.name ≠ name) :
    P.register b name t = if b = false ∧ (t = LAST ∨ P.tags.names = 0) then .ok (P, -1) else P.addSymbol b name t := by
  have hst : P.startNames b = P := by unfold Pool.startNames; rw [if_neg (h.some hl)]
  have hfind : findRec name (P.tab b).names 0 l = none := by
    cases hf : findRec name (P.tab b).names 0 l with
    | none => rfl
    | some x =>
      obtain ⟨l1, s, l2, rfl, f2, -⟩ := findRec_some l hf
      exact absurd f2 (hnew s (by simp))
  have hlook : P.lookup b name = .ok none := by
    unfold Pool.lookup
    rw [if_neg (by rw [h.slow]; simp), getByName_ok hP hsm h hg, hfind]
  unfold Pool.register
  rw [hst]
  simp only [hlook, Out.ok_bind]
  by_cases hb : b = false
  · by_cases ht : t = LAST
    · rw [if_pos ⟨hb, ht⟩, if_pos ⟨hb, Or.inl ht⟩]; rfl
    · rw [if_neg (fun hc => ht hc.2)]
      by_cases hn : P.tags.names = 0
      · rw [if_pos ⟨hb, hn⟩, if_pos ⟨hb, Or.inr hn⟩]; rfl
      · rw [if_neg (fun hc => hn hc.2), if_neg (fun hc => by rcases hc.2 with hc | hc; exact ht hc; exact hn hc)]
  · rw [if_neg (fun hc => hb hc.1), if_neg (fun hc => hb hc.1), if_neg (fun hc => hb hc.1)]

/-- registering with the next identification does what registering by name does, except for the result -/
theorem registerId_next {g : Plug} (hc : g.check = false) (hP : PoolOk g.pool) (hsm : g.pool.mmapSize < 2147483648) {b : Bool} {l : List Sym} (h : TabOk g.pool (g.pool.tab b) l) (hl : l ≠ []) {name : BStr} {t : XBT}
    (hg : GoodName name) (hnew : ∀ s ∈ l, s.name ≠ name) (ht : t ≠ LAST) {Q : Pool} {i : Int} (ho : g.pool.register b name t = .ok (Q, i)) (hi : 0 ≤ i) :
    i = l.length ∧ g.registerId b i name t = .ok ({ g with pool := Q }, !b) := by
  rw [register_new_eq hP hsm h hl hg hnew] at ho
  split at ho
  · cases ho; omega
  · rename_i hb
    unfold Pool.addSymbol at ho
    obtain ⟨⟨Q1, r1⟩, h1, ho⟩ := Out.bind_eq_ok ho
    obtain ⟨s1, s2, s3⟩ := open_spec hP h (h.some hl) h1
    cases r1 with
    | false => rw [if_pos rfl] at ho; cases ho; omega
    | true =>
      obtain ⟨t1, t2, t3, t4, t5⟩ := s3 rfl
      rw [if_neg (by simp)] at ho
      obtain ⟨⟨Q2, o⟩, h2, ho⟩ := Out.bind_eq_ok ho
      cases o with
      | none => cases ho; omega
      | some o =>
        simp only at ho
        obtain ⟨Q3, h3, ho⟩ := Out.bind_eq_ok ho
        simp only [Out.pure_eq, Out.ok.injEq, Prod.mk.injEq] at ho
        obtain ⟨rfl, rfl⟩ := ho
        have ht2 : Q2.tab b = Q1.tab b := allocate_tab h2 b
        have hmax : (Q2.tab b).maxId + 1 = l.length := by rw [ht2, t1.max]; omega
        refine ⟨hmax, ?_⟩
        have hst : Q1.startNames b = Q1 := by unfold Pool.startNames; rw [if_neg t3]
        have hadd : Q1.addAt b ((Q2.tab b).maxId + 1) name t = .ok (Q3, !b) := by
          unfold Pool.addAt
          simp only [hst]
          rw [show max (Q1.tab b).maxId ((Q2.tab b).maxId + 1) = (Q2.tab b).maxId + 1 by rw [ht2]; omega, allocate_setTab, h2]
          show ((Out.ok (_, some o)) >>= _) = _
          rw [Out.ok_bind, ← ht2]
          simp only
          rw [h3, Out.ok_bind, Out.pure_eq]
          cases b with
          | false => rfl
          | true =>
            obtain ⟨a1, a2⟩ := allocate_alloc h2
            have a3 := wr_alloc h3
            have e : ((3 : Int) + name.length + 1).toNat = 3 + name.length + 1 := by omega
            rw [e] at a2
            rw [setTab_alloc] at a3
            rw [if_pos rfl, decide_eq_false (by omega)]; rfl
        unfold Plug.registerId
        rw [if_neg ht, if_neg (by rw [hc]; simp), h1, Out.ok_bind]
        have hb' : b = false → Q1.tags.names ≠ 0 := fun hb' => by
          have := s1.other true (by rw [hb']; simp)
          intro h0
          exact hb ⟨hb', Or.inr (by rw [← show Q1.tags = g.pool.tags from this]; exact h0)⟩
        rw [if_neg (by rintro (hx | hx); simp at hx; exact hb' hx.1 hx.2), hadd]
        rfl

end BX
