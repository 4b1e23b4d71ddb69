import Verif.Lemmas.Dict
/-
The operations on symbol tables.
-/
namespace BX
open XBT Spec

/-! ### the two tables of a pool -/

@[simp] theorem setTab_tab (P : Pool) (b : Bool) (T : Tab16) : (P.setTab b T).tab b = T := by cases b <;> rfl
theorem setTab_other (P : Pool) {b c : Bool} (T : Tab16) (h : c ≠ b) : (P.setTab b T).tab c = P.tab c := by
  cases b <;> cases c <;> first | rfl | exact absurd rfl h
theorem setTab_same (P : Pool) (b : Bool) (T : Tab16) : (P.setTab b T).mem = P.mem ∧ (P.setTab b T).fileSize = P.fileSize ∧ (P.setTab b T).mmapSize = P.mmapSize ∧
    (P.setTab b T).root = P.root ∧ (P.setTab b T).alloc = P.alloc ∧ (P.setTab b T).limit = P.limit := by
  cases b <;> exact ⟨rfl, rfl, rfl, rfl, rfl, rfl⟩
@[simp] theorem setTab_mem (P : Pool) (b : Bool) (T : Tab16) : (P.setTab b T).mem = P.mem := (setTab_same P b T).1
@[simp] theorem setTab_fileSize (P : Pool) (b : Bool) (T : Tab16) : (P.setTab b T).fileSize = P.fileSize := (setTab_same P b T).2.1
@[simp] theorem setTab_mmapSize (P : Pool) (b : Bool) (T : Tab16) : (P.setTab b T).mmapSize = P.mmapSize := (setTab_same P b T).2.2.1
@[simp] theorem setTab_root (P : Pool) (b : Bool) (T : Tab16) : (P.setTab b T).root = P.root := (setTab_same P b T).2.2.2.1
@[simp] theorem setTab_alloc (P : Pool) (b : Bool) (T : Tab16) : (P.setTab b T).alloc = P.alloc := (setTab_same P b T).2.2.2.2.1
@[simp] theorem setTab_limit (P : Pool) (b : Bool) (T : Tab16) : (P.setTab b T).limit = P.limit := (setTab_same P b T).2.2.2.2.2
theorem setTab_self (P : Pool) (b : Bool) : P.setTab b (P.tab b) = P := by cases b <;> rfl
theorem PoolOk.setTab {P : Pool} (h : PoolOk P) (b : Bool) (T : Tab16) : PoolOk (P.setTab b T) := by
  obtain ⟨h1, h2, h3, h4, h5, h6⟩ := h
  exact ⟨by simpa using h1, by simpa using h2, by simpa using h3, by simpa using h4, by simpa using h5, by simpa using h6⟩
theorem setTab_img (P : Pool) (b : Bool) (T : Tab16) : (P.setTab b T).img = P.img := by unfold Pool.img; simp

/-- a table in memory -/
structure TabOk (P : Pool) (T : Tab16) (l : List Sym) : Prop where
  max : T.maxId = (l.length : Int) - 1
  few : l.length ≤ 128
  good : ∀ s ∈ l, GoodName s.name
  nodup : (l.map (·.name)).Nodup
  slow : T.fast = false
  some : l ≠ [] → T.names ≠ 0
  names : T.names ≠ 0 → poolHeader ≤ T.names ∧ T.names % 4 = 0 ∧ T.names + symsLen l ≤ P.alloc ∧ Has P.mem T.names (encSyms 0 l)
  index : T.index ≠ 0 → T.names ≠ 0 ∧ poolHeader ≤ T.index ∧ T.index + 4 * l.length ≤ P.alloc ∧ Has P.mem T.index (encIdx T.names l)

/-- the bytes of the names, and of the index -/
def inNames (T : Tab16) (l : List Sym) (i : Nat) : Prop := T.names ≠ 0 ∧ T.names ≤ i ∧ i < T.names + symsLen l
def inIndex (T : Tab16) (l : List Sym) (i : Nat) : Prop := T.index ≠ 0 ∧ T.index ≤ i ∧ i < T.index + 4 * l.length

theorem TabOk.frame {P Q : Pool} {T : Tab16} {l : List Sym} (h : TabOk P T l) (ha : P.alloc ≤ Q.alloc) (hm : ∀ i, inNames T l i ∨ inIndex T l i → Q.mem i = P.mem i) : TabOk Q T l := by
  refine ⟨h.max, h.few, h.good, h.nodup, h.slow, h.some, fun hn => ?_, fun hi => ?_⟩
  · obtain ⟨h1, h2, h3, h4⟩ := h.names hn
    refine ⟨h1, h2, by omega, h4.congr fun i i1 i2 => hm i (Or.inl ⟨hn, i1, ?_⟩)⟩
    rw [encSyms_length] at i2; exact i2
  · obtain ⟨h1, h2, h3, h4⟩ := h.index hi
    refine ⟨h1, h2, by omega, h4.congr fun i i1 i2 => hm i (Or.inr ⟨hi, i1, ?_⟩)⟩
    rw [encIdx_length] at i2; exact i2

theorem TabOk.lt {P : Pool} {T : Tab16} {l : List Sym} (h : TabOk P T l) {i : Nat} (hi : inNames T l i ∨ inIndex T l i) : poolHeader ≤ i ∧ i < P.alloc := by
  rcases hi with ⟨h1, h2, h3⟩ | ⟨h1, h2, h3⟩
  · have := h.names h1; omega
  · have := h.index h1; omega

/-- the names when the table has no names is empty -/
theorem TabOk.nil {P : Pool} {T : Tab16} {l : List Sym} (h : TabOk P T l) (hn : T.names = 0) : l = [] := by
  by_cases hl : l = []
  · exact hl
  · exact absurd hn (h.some hl)

theorem TabOk.has {P : Pool} {T : Tab16} {l : List Sym} (h : TabOk P T l) : Has P.mem T.names (encSyms 0 l) := by
  by_cases hn : T.names = 0
  · rw [h.nil hn]; rfl
  · exact (h.names hn).2.2.2

theorem TabOk.noNul {P : Pool} {T : Tab16} {l : List Sym} (h : TabOk P T l) : ∀ s ∈ l, NoNul s.name := fun s hs => (h.good s hs).2

theorem PoolOk.size {P : Pool} (h : PoolOk P) : P.alloc ≤ P.fileSize := by have := h.le; have := h.lim; omega

theorem TabOk.room {P : Pool} {T : Tab16} {l : List Sym} (h : TabOk P T l) (hn : T.names ≠ 0) : 4 * l.length + poolHeader ≤ P.alloc := by
  have h1 := symsLen_mod l
  have h2 := h.names hn
  omega

theorem namesSize_ok {P : Pool} (hP : PoolOk P) {T : Tab16} {l : List Sym} (h : TabOk P T l) : P.namesSize T = .ok (symsLen l, T) := by
  unfold Pool.namesSize
  by_cases hn : T.names = 0
  · rw [if_pos hn, h.nil hn]; rfl
  · obtain ⟨h1, h2, h3, h4⟩ := h.names hn
    have hr := h.room hn
    have hf := h.few
    rw [if_neg hn]
    have := namesLoop_ok (f := P.img) (lim := P.alloc) (maxId := T.maxId) hP.size l T.names 0 (P.alloc + 4) (-1) h4 h.noNul h2 h3 (by rw [h.max]; simp) (by omega) (by simp) (by omega)
    rw [show ((0 : Nat) : Int) = 0 from rfl] at this
    rw [this, Out.ok_bind]
    simp

/-- what is known when a table has been changed: everything else is as before -/
structure TabStep (P Q : Pool) (b : Bool) : Prop where
  ok : PoolOk Q
  mono : P.alloc ≤ Q.alloc
  file : Q.fileSize = P.fileSize
  map : Q.mmapSize = P.mmapSize
  root : Q.root = P.root
  other : ∀ c, c ≠ b → Q.tab c = P.tab c
  keep : ∀ i, i < P.alloc → Q.mem i = P.mem i

theorem TabStep.refl {P : Pool} (h : PoolOk P) (b : Bool) : TabStep P P b := ⟨h, Nat.le_refl _, rfl, rfl, rfl, fun _ _ => rfl, fun _ _ => rfl⟩
theorem TabStep.trans {P Q R : Pool} {b : Bool} (h : TabStep P Q b) (h' : TabStep Q R b) : TabStep P R b :=
  ⟨h'.ok, Nat.le_trans h.mono h'.mono, h'.file.trans h.file, h'.map.trans h.map, h'.root.trans h.root, fun c hc => (h'.other c hc).trans (h.other c hc),
    fun i hi => (h'.keep i (Nat.lt_of_lt_of_le hi h.mono)).trans (h.keep i hi)⟩
theorem TabStep.setTab {P Q : Pool} {b : Bool} (h : TabStep P Q b) (T : Tab16) : TabStep P (Q.setTab b T) b :=
  ⟨h.ok.setTab b T, by simpa using h.mono, by simpa using h.file, by simpa using h.map, by simpa using h.root,
    fun c hc => (setTab_other Q T hc).trans (h.other c hc), fun i hi => by simpa using h.keep i hi⟩
theorem TabStep.wr {P Q R : Pool} {b : Bool} (h : TabStep P Q b) {A : Int} {bs : List UInt8} (hw : Q.wr A bs = .ok R) (hA : (P.alloc : Int) ≤ A) :
    TabStep P R b ∧ R.alloc = Q.alloc ∧ R.tab b = Q.tab b := by
  obtain ⟨a, rfl, h1, rfl⟩ := Pool.wr_ok hw
  refine ⟨⟨h.ok.mem _, h.mono, h.file, h.map, h.root, h.other, fun i hi => ?_⟩, rfl, rfl⟩
  exact (memPut_frame _ _ _ _ (Or.inl (by omega))).trans (h.keep i hi)

theorem allocate_step {P Q : Pool} (hP : PoolOk P) (b : Bool) {size : Int} {r : Option Nat} (h : P.allocate size = .ok (Q, r)) :
    TabStep P Q b ∧ Q.tab b = P.tab b ∧ (r = none → Q = P) ∧ ∀ o, r = some o → o = P.alloc ∧ 0 < size ∧ Q.alloc = o + aa size.toNat ∧ ∀ i, o ≤ i → i < Q.alloc → Q.mem i = 0 := by
  rcases allocate_spec hP h with ⟨rfl, rfl⟩ | ⟨o, rfl, h1, h2, h3, h4, h5, h6⟩
  · exact ⟨TabStep.refl hP b, rfl, fun _ => rfl, by simp⟩
  · obtain ⟨s1, s2, s3, s4⟩ := h3.same
    have hlo := h3.lo
    have htab : ∀ c, Q.tab c = P.tab c := fun c => by unfold Pool.tab; rw [s3, s4]
    refine ⟨⟨h4, by rw [h6]; omega, h5, s1, s2, fun c _ => htab c, fun i hi => h3.keep i (by omega)⟩, htab b, by simp, ?_⟩
    rintro _ ⟨⟩
    exact ⟨h1, h2, h6, h3.zero⟩

theorem rd_has {f : Img} {A : Int} {n : Nat} {bs : List UInt8} (h : f.rd A n = .ok bs) : ∃ a : Nat, A = a ∧ bs.length = n ∧ Has f.mem a bs ∧ a + n ≤ f.size := by
  unfold Img.rd at h
  split at h
  · rename_i hc
    simp only [Out.ok.injEq] at h
    subst h
    refine ⟨A.toNat, by omega, slice_length _ _ _, ?_, by omega⟩
    unfold Has; rw [slice_length]
  · cases h

/-- copying what is known to be at the source -/
theorem copy_spec {P Q : Pool} {dst src size : Nat} {bs : List UInt8} (h : P.copy dst src size = .ok Q) (hs : Has P.mem src bs) (hl : bs.length = size) :
    Q = { P with mem := memPut P.mem dst bs } ∧ dst + size ≤ P.fileSize := by
  unfold Pool.copy at h
  obtain ⟨cs, h1, h2⟩ := Out.bind_eq_ok h
  obtain ⟨a, ha, h3, h4, h5⟩ := rd_has h1
  have : src = a := by omega
  subst this
  have : cs = bs := by
    have h4' : slice P.mem src cs.length = cs := h4
    have hs' : slice P.mem src bs.length = bs := hs
    rw [← h4', ← hs', h3, hl]
  subst this
  obtain ⟨a, ha, h6, h7⟩ := Pool.wr_ok h2
  have : dst = a := by omega
  subst this
  exact ⟨h7, by omega⟩

theorem open_spec {P Q : Pool} (hP : PoolOk P) {b : Bool} {l : List Sym} (h : TabOk P (P.tab b) l) (hn : (P.tab b).names ≠ 0) {r : Bool} (ho : P.open' b = .ok (Q, r)) :
    TabStep P Q b ∧ (r = false → Q = P) ∧ (r = true → TabOk Q (Q.tab b) l ∧ (Q.tab b).index = 0 ∧ (Q.tab b).names ≠ 0 ∧ (Q.tab b).names + symsLen l = Q.alloc ∧
      ((Q.tab b).names = (P.tab b).names ∨ P.alloc ≤ (Q.tab b).names)) := by
  unfold Pool.open' at ho
  rw [namesSize_ok hP h, Out.ok_bind] at ho
  simp only [setTab_self] at ho
  split at ho
  · rename_i hc
    simp only [Out.pure_eq, Out.ok.injEq, Prod.mk.injEq] at ho
    obtain ⟨rfl, rfl⟩ := ho
    exact ⟨TabStep.refl hP b, by simp, fun _ => ⟨h, hc.1, hn, hc.2, Or.inl rfl⟩⟩
  · obtain ⟨⟨Q1, r1⟩, h1, ho⟩ := Out.bind_eq_ok ho
    obtain ⟨s1, s2, s3, s4⟩ := allocate_step hP b h1
    cases r1 with
    | none =>
      simp only [Out.pure_eq, Out.ok.injEq, Prod.mk.injEq] at ho
      obtain ⟨rfl, rfl⟩ := ho
      exact ⟨s1, fun _ => s3 rfl, by simp⟩
    | some o =>
      simp only at ho
      obtain ⟨Q2, h2, ho⟩ := Out.bind_eq_ok ho
      simp only [Out.pure_eq, Out.ok.injEq, Prod.mk.injEq] at ho
      obtain ⟨rfl, rfl⟩ := ho
      obtain ⟨o1, o2, o3, o4⟩ := s4 o rfl
      obtain ⟨n1, n2, n3, n4⟩ := h.names hn
      have hl := encSyms_length l 0
      have hsrc : Has Q1.mem (P.tab b).names (encSyms 0 l) := n4.congr fun i _ i2 => s1.keep i (by omega)
      obtain ⟨rfl, hb⟩ := copy_spec h2 hsrc hl
      have hal : aa ((symsLen l : Int)).toNat = symsLen l := by rw [Int.toNat_natCast]; exact aa_of_mod (symsLen_mod l).1
      rw [hal] at o3
      have st : TabStep P { Q1 with mem := memPut Q1.mem o (encSyms 0 l) } b :=
        ⟨s1.ok.mem _, s1.mono, s1.file, s1.map, s1.root, s1.other, fun i hi => (memPut_frame _ _ _ _ (Or.inl (by omega))).trans (s1.keep i hi)⟩
      have hhead := hP.head
      have hpos : 0 < poolHeader := by decide
      have hal4 := hP.al
      refine ⟨st.setTab _, by simp, fun _ => ?_⟩
      rw [setTab_tab]
      refine ⟨⟨h.max, h.few, h.good, h.nodup, h.slow, fun _ => by simp only; omega, fun _ => ⟨by simp only; omega, by simp only; omega, by simp only [setTab_alloc]; omega, ?_⟩, fun hi => absurd rfl hi⟩, rfl,
        by simp only; omega, by simp only [setTab_alloc]; omega, Or.inr (by simp only; omega)⟩
      rw [setTab_mem]
      exact Has.self _ _ _

theorem GoodName.append {l : List Sym} {name : BStr} {t : XBT} (h : ∀ s ∈ l, GoodName s.name) (hg : GoodName name) : ∀ s ∈ l ++ [⟨name, t⟩], GoodName s.name := by
  intro s hs
  rcases List.mem_append.1 hs with hs | hs
  · exact h s hs
  · rw [List.mem_singleton.1 hs]; exact hg

theorem nodup_append {l : List Sym} {name : BStr} {t : XBT} (h : (l.map (·.name)).Nodup) (hn : ∀ s ∈ l, s.name ≠ name) : ((l ++ [(⟨name, t⟩ : Sym)]).map (·.name)).Nodup := by
  rw [List.map_append, List.nodup_append]
  refine ⟨h, by simp, ?_⟩
  intro a ha c hc
  obtain ⟨s, hs, rfl⟩ := List.mem_map.1 ha
  simp only [List.map_cons, List.map_nil, List.mem_singleton] at hc
  subst hc
  exact hn s hs

theorem addSymbol_spec {P Q : Pool} (hP : PoolOk P) {b : Bool} {l : List Sym} (h : TabOk P (P.tab b) l) (hn : (P.tab b).names ≠ 0) {name : BStr} {t : XBT} (hg : GoodName name) (hnew : ∀ s ∈ l, s.name ≠ name)
    (hfew : l.length < 128) {id : Int} (ho : P.addSymbol b name t = .ok (Q, id)) :
    TabStep P Q b ∧ ((id = -1 ∧ TabOk Q (Q.tab b) l ∧ (Q = P ∨ (Q.tab b).index = 0) ∧ ((Q.tab b).names = (P.tab b).names ∨ P.alloc ≤ (Q.tab b).names)) ∨
      (id = l.length ∧ TabOk Q (Q.tab b) (l ++ [⟨name, t⟩]) ∧ (Q.tab b).index = 0 ∧
        (((Q.tab b).names = (P.tab b).names ∧ P.alloc = (P.tab b).names + symsLen l) ∨ P.alloc ≤ (Q.tab b).names))) := by
  unfold Pool.addSymbol at ho
  obtain ⟨⟨Q1, r1⟩, h1, ho⟩ := Out.bind_eq_ok ho
  obtain ⟨s1, s2, s3⟩ := open_spec hP h hn h1
  cases r1 with
  | false =>
    rw [if_pos rfl] at ho
    simp only [Out.pure_eq, Out.ok.injEq, Prod.mk.injEq] at ho
    obtain ⟨rfl, rfl⟩ := ho
    have := s2 rfl
    subst this
    exact ⟨s1, Or.inl ⟨rfl, h, Or.inl rfl, Or.inl rfl⟩⟩
  | true =>
    rw [if_neg (by simp)] at ho
    obtain ⟨t1, t2, t3, t4, t5⟩ := s3 rfl
    obtain ⟨⟨Q2, r2⟩, h2, ho⟩ := Out.bind_eq_ok ho
    obtain ⟨u1, u2, u3, u4⟩ := allocate_step s1.ok b h2
    cases r2 with
    | none =>
      simp only [Out.pure_eq, Out.ok.injEq, Prod.mk.injEq] at ho
      obtain ⟨rfl, rfl⟩ := ho
      have := u3 rfl
      subst this
      exact ⟨s1, Or.inl ⟨rfl, t1, Or.inr t2, t5⟩⟩
    | some o =>
      simp only at ho
      obtain ⟨o1, o2, o3, o4⟩ := u4 o rfl
      obtain ⟨Q3, h3, ho⟩ := Out.bind_eq_ok ho
      simp only [Out.pure_eq, Out.ok.injEq, Prod.mk.injEq] at ho
      obtain ⟨rfl, rfl⟩ := ho
      have st := ((s1.trans u1).setTab { Q2.tab b with maxId := (Q2.tab b).maxId + 1 })
      have hmax : (Q2.tab b).maxId + 1 = (l.length : Int) := by rw [u2, t1.max]; omega
      obtain ⟨a, ha, h4, rfl⟩ := Pool.wr_ok h3
      have : a = o := by omega
      subst this
      have hmono := s1.mono
      have htab : Pool.tab { Q2.setTab b { Q2.tab b with maxId := (Q2.tab b).maxId + 1 } with mem := memPut (Q2.setTab b { Q2.tab b with maxId := (Q2.tab b).maxId + 1 }).mem a (symRecord ((Q2.tab b).maxId + 1) t name) } b
          = { Q2.tab b with maxId := (Q2.tab b).maxId + 1 } := by
        cases b <;> rfl
      have hmax' : (Q1.tab b).maxId + 1 = (l.length : Int) := by rw [← u2]; exact hmax
      refine ⟨⟨st.ok.mem _, st.mono, st.file, st.map, st.root, st.other, fun i hi => (memPut_frame _ _ _ _ (Or.inl (by omega))).trans (st.keep i hi)⟩, Or.inr ⟨hmax, ?_, ?_, ?_⟩⟩
      · have hlen : recLen ⟨name, t⟩ = aa (name.length + 4) := rfl
        rw [htab]
        have hsz : (3 + (name.length : Int) + 1).toNat = name.length + 4 := by omega
        rw [hsz] at o3
        obtain ⟨n1, n2, n3, n4⟩ := t1.names t3
        have h5 := symsLen_append l [⟨name, t⟩]
        simp only [symsLen, hlen] at h5
        refine ⟨?_, by simp; omega, GoodName.append t1.good hg, nodup_append t1.nodup hnew, by simp only [u2]; exact t1.slow, fun _ => by simp only [u2]; exact t3, fun _ => ?_, fun hi => ?_⟩
        · simp only [hmax]; simp
        · simp only [u2, setTab_alloc]
          refine ⟨n1, n2, by omega, ?_⟩
          rw [encSyms_append, Has.append, encSyms_length]
          have hin : (Q1.tab b).names + symsLen l = a := by omega
          constructor
          · refine (Has.congr n4 ?_).frame (Or.inl (by rw [encSyms_length]; omega))
            intro i _ i2
            rw [encSyms_length] at i2
            rw [setTab_mem]
            exact u1.keep i (by omega)
          · rw [hin, Nat.zero_add, encSyms, encSyms, List.append_nil]
            unfold encRec
            rw [Has.append]
            simp only
            rw [← hmax']
            refine ⟨Has.self _ _ _, ?_⟩
            rw [symRecord_length]
            have hz : Has Q2.mem (a + (name.length + 4)) (List.replicate (recLen ⟨name, t⟩ - (name.length + 4)) 0) := by
              unfold Has
              rw [List.length_replicate]
              apply List.ext_getElem
              · simp [slice_length]
              · intro i i1 i2
                rw [slice_getElem, List.getElem_replicate]
                rw [slice_length] at i1
                exact o4 _ (by omega) (by omega)
            refine Has.frame ?_ (Or.inr ?_)
            · rw [setTab_mem]; exact hz
            · rw [symRecord_length]; exact Nat.le_refl _
        · simp only [u2] at hi
          exact absurd t2 hi
      · rw [htab]; simp only [u2]; exact t2
      · rw [htab]
        simp only [u2]
        rcases t5 with t5 | t5
        · left
          refine ⟨t5, ?_⟩
          have hP' := h.names hn
          omega
        · exact Or.inr t5

end BX
