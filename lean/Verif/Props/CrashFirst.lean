import Verif.Model.CrashFirst
import Verif.Props.CrashRegister
/-
C69: the process is killed while it registers the first symbol of a table.
-/
namespace BX
open XBT Spec

/-- registering a new name in a table whose names have a place -/
theorem register_placed_eq {P : Pool} (hP : PoolOk P) (hsm : P.mmapSize < 2147483648) {b : Bool} {l : List Sym} (h : TabOk P (P.tab b) l) (hn : (P.tab b).names ≠ 0) {name : BStr} {t : XBT} (hg : GoodName name)
    (hnew : ∀ s ∈ l, s.name ≠ name) : P.register b name t = if b = false ∧ (t = LAST ∨ P.tags.names = 0) then .ok (P, -1) else P.addSymbol b name t := by
  have hst : P.startNames b = P := by unfold Pool.startNames; rw [if_neg hn]
  have hfind : findRec name (P.tab b).names 0 l = none := by
    cases hf : findRec name (P.tab b).names 0 l with
    | none => rfl
    | some x =>
      obtain ⟨l1, s, l2, rfl, f2, -⟩ := findRec_some l hf
      exact absurd f2 (hnew s (by simp))
  have hlook : P.lookup b name = .ok none := by
    unfold Pool.lookup
    rw [if_neg (by rw [h.slow]; simp), getByName_ok hP hsm h hg, hfind]
  unfold Pool.register
  rw [hst]
  simp only [hlook, Out.ok_bind]
  by_cases hb : b = false
  · by_cases ht : t = LAST
    · rw [if_pos ⟨hb, ht⟩, if_pos ⟨hb, Or.inl ht⟩]; rfl
    · rw [if_neg (fun hc => ht hc.2)]
      by_cases hn : P.tags.names = 0
      · rw [if_pos ⟨hb, hn⟩, if_pos ⟨hb, Or.inr hn⟩]; rfl
      · rw [if_neg (fun hc => hn hc.2), if_neg (fun hc => by rcases hc.2 with hc | hc; exact ht hc; exact hn hc)]
  · rw [if_neg (fun hc => hb hc.1), if_neg (fun hc => hb hc.1), if_neg (fun hc => hb hc.1)]

/-- the place of the names has been set -/
theorem first_placed {P : Pool} {D : Doc} {els V fl} (k : Keeps P D els V fl) {b : Bool} (hl : D.syms b = []) (hn : (P.tab b).names = 0) :
    P.store1 (.tab b { P.tab b with names := P.alloc }) = .ok (P.startNames b) ∧ (P.startNames b).alloc = P.alloc ∧ (P.startNames b).limit = P.limit ∧ ((P.startNames b).tab b).index = 0 ∧
      ((P.startNames b).tab b).names ≠ 0 ∧ ((P.startNames b).tab b).names + symsLen (D.syms b) = (P.startNames b).alloc ∧ ((P.startNames b).tab b).maxId = -1 ∧ (∀ c, c ≠ b → (P.startNames b).tab c = P.tab c) ∧
      Keeps (P.startNames b) (D.setSyms b (D.syms b) false) els V fl := by
  obtain ⟨s1, s2, s3, s4, s5, s6, s7⟩ := startNames_spec k.sees.ok (k.tabs b)
  have hidx : (P.tab b).index = 0 := by
    by_cases h : (P.tab b).index = 0
    · exact h
    · exact absurd hn ((k.tabs b).index h).1
  have hs : P.startNames b = P.setTab b { P.tab b with names := P.alloc } := by unfold Pool.startNames; rw [if_pos hn]
  refine ⟨by rw [hs]; rfl, s5, by rw [hs, setTab_limit], by rw [s6]; exact hidx, s3, ?_, ?_, s1.other, ?_⟩
  · rw [hl, s5]
    rcases s7 with s7 | s7
    · exact absurd (s7.trans hn) s3
    · simp only [symsLen]; omega
  · have := s2.max
    rw [hl] at this
    simpa using this
  · refine k.tab ⟨s1.ok, s1.mono, s1.file, s1.map, s1.root, s1.other, fun i hi _ => s1.keep i hi, s2, ?_, ?_⟩ (by simp)
    · rintro i ⟨i1, i2, i3⟩
      rw [hl] at i3
      simp only [symsLen] at i3
      omega
    · rintro i ⟨i1, -⟩
      rw [s6] at i1
      exact absurd hidx i1

/-- the stores of registering the first name of a table, where there is room, are what the call does -/
theorem C69_first_stores {E : Env} {maxSize : Nat} (h1 : 0x4000 ≤ maxSize) (h2 : maxSize < 2147483648) {P Q : Pool} {D : Doc} (h : Sess E maxSize P D) {b : Bool} (hl : D.syms b = []) (hn : (P.tab b).names = 0)
    {name : BStr} {t : XBT} (hne : name ≠ []) (hnn : ∀ x ∈ name, x ≠ 0) (ht : b = false → t ≠ LAST ∧ D.syms true ≠ []) (hroom : P.alloc + aa (name.length + 4) ≤ P.limit) :
    P.register b name t = .ok (Q, 0) ↔ P.stores (P.firstStores b name t) = .ok Q := by
  obtain ⟨⟨els, V, fl, k⟩, -⟩ := sess_both h1 h2 h
  obtain ⟨f1, f2, f3, f4, f5, f6, f7, f9, f8⟩ := first_placed k hl hn
  obtain ⟨r1, -, -⟩ := record_part f8.sees.ok b name t (by omega)
  have hreg : P.register b name t = (P.startNames b).register b name t := by
    have hst : (P.startNames b).startNames b = P.startNames b := by
      generalize P.startNames b = S at f5
      unfold Pool.startNames; rw [if_neg f5]
    unfold Pool.register
    rw [if_neg (fun hc => (ht hc.1).1 hc.2), if_neg (fun hc => (ht hc.1).1 hc.2), hst]
  have hst : P.stores (P.firstStores b name t) = (P.startNames b).stores ((P.startNames b).recordStores b name t) := by
    unfold Pool.firstStores
    show (Pool.store1 P _ >>= fun S => S.stores _) = _
    rw [f1, Out.ok_bind]
  have hsy := (setSyms_self D b (D.syms b) false).1
  have htab := f8.tabs b
  rw [hsy] at htab
  rw [hreg, hst, r1]
  have htn : b = false → (P.startNames b).tags.names ≠ 0 := fun hb => by
    have := f9 true (by rw [hb]; simp)
    show ((P.startNames b).tab true).names ≠ 0
    rw [this]
    exact (k.tabs true).some (ht hb).2
  generalize P.startNames b = A at *
  have hA := f8.sees.ok
  rw [register_placed_eq hA f8.sees.small htab f5 ⟨hne, hnn⟩ (by rw [hl]; simp), if_neg (fun hc => by rcases hc.2 with h | h; exact (ht hc.1).1 h; exact htn hc.1 h)]
  have hopen : A.open' b = .ok (A, true) := by
    unfold Pool.open'
    rw [namesSize_ok hA htab, Out.ok_bind]
    simp only [setTab_self]
    rw [if_pos ⟨f4, f6⟩]; rfl
  unfold Pool.addSymbol
  rw [hopen, Out.ok_bind, if_neg (by simp), allocRoom_eq hA f8.sees.small (size := name.length + 4) (by omega) (by omega) _ (by omega), Out.ok_bind]
  simp only
  have ht' : Pool.tab { A with mem := memPut A.mem A.alloc (List.replicate (aa (name.length + 4)) 0), alloc := A.alloc + aa (name.length + 4) } b = A.tab b := by cases b <;> rfl
  have hge := aa_ge (name.length + 4)
  have hlim := hA.lim
  rw [ht', Pool.wr_eq (a := A.alloc) (by rw [symRecord_length, setTab_fileSize]; show _ ≤ A.fileSize; omega) _ rfl, Out.ok_bind, f7]
  constructor
  · intro e
    simp only [Out.pure_eq, Out.ok.injEq, Prod.mk.injEq] at e
    rw [← e.1]
    unfold Pool.begun Pool.counted
    rw [f7]; rfl
  · intro e
    simp only [Out.ok.injEq] at e
    rw [← e]
    unfold Pool.begun Pool.counted
    rw [f7]; rfl

/-- the record of the first symbol is complete when it is counted -/
theorem counted_first (A : Pool) (b : Bool) (n : Nat) (hn : 4 ≤ n) (hm : (A.tab b).maxId = -1) : A.counted b n = A.begun b n (leN 2 (toU 16 ((A.tab b).maxId + 1)) ++ [XBT.code NULL] ++ []) := by
  have e : leN 2 (toU 16 ((A.tab b).maxId + 1)) ++ [XBT.code NULL] ++ [] = [] ++ List.replicate 3 0 := by rw [hm]; decide
  have hge := aa_ge n
  rw [e]
  unfold Pool.begun
  have := memPut_pad (m := (A.counted b n).mem) (a := A.alloc) (bs := []) (n := 3) fun i i1 i2 => by
    simp only [List.length_nil] at i1 i2
    rw [counted_mem]
    exact memPut_zeros (by omega) (by omega)
  have hnil : memPut (A.counted b n).mem A.alloc [] = (A.counted b n).mem := by
    funext i
    exact memPut_frame _ _ _ _ (by simp only [List.length_nil]; omega)
  rw [this, hnil]

/-- a process killed while the first name of a table is registered, at any point: the file opens with all elements, and once `allRegistered` has succeeded, the table has no symbol, or one whose name is a part of
the name -/
theorem C69_first_partial {E : Env} {maxSize : Nat} (h1 : 0x4000 ≤ maxSize) (h2 : maxSize < 2147483648) {P : Pool} {D : Doc} (h : Sess E maxSize P D) {b : Bool} (hl : D.syms b = []) (hn : (P.tab b).names = 0)
    {name : BStr} {t : XBT} (hnn : ∀ x ∈ name, x ≠ 0) (hroom : P.alloc + aa (name.length + 4) ≤ P.limit) {C : Pool} (hC : P.KilledIn (P.firstStores b name t) C) :
    RecoversAs E C.file D ∨ ∃ j ≤ name.length, ∃ t', (t' = t ∨ j = 0 ∧ t' = NULL) ∧ RecoversAs E C.file (D.withSym b (name.take j) t') := by
  obtain ⟨⟨els, V, fl, k⟩, low⟩ := sess_both h1 h2 h
  obtain ⟨f1, f2, f3, f4, f5, f6, f7, f9, f8⟩ := first_placed k hl hn
  rcases killed_cons (by simp) f1 hC with rfl | hC
  · exact Or.inl (k.recovers low)
  obtain ⟨-, r2, -⟩ := record_part f8.sees.ok b name t (by omega)
  have e := (setSyms_self D b (D.syms b) false).1
  have hrec : ∀ j t', j ≤ name.length → RecoversAs E ((P.startNames b).begun b (name.length + 4) (leN 2 (toU 16 (((P.startNames b).tab b).maxId + 1)) ++ [t'.code] ++ name.take j)).file (D.withSym b (name.take j) t') := by
    intro j t' hj
    have := begun_recovers (E := E) f8 low (p := name.take j) (t := t') f5 f4 (by rw [e]; exact f6) (by rw [e, hl]; decide) (n := name.length + 4) (by omega) (fun x hx => hnn x (List.mem_of_mem_take hx))
      (by rw [List.length_take]; omega)
    rw [withSym_any] at this
    exact this
  rcases r2 C hC with g | rfl | ⟨j, t', hj, ht', rfl⟩
  · exact Or.inl (RecoversAs.any ((f8.got g).recovers low))
  · refine Or.inr ⟨0, Nat.zero_le _, NULL, Or.inr ⟨rfl, rfl⟩, ?_⟩
    rw [counted_first _ _ _ (by omega) f7]
    exact hrec 0 NULL (Nat.zero_le _)
  · exact Or.inr ⟨j, hj, t', ht', hrec j t' hj⟩

/-- killed while the first name of a table is registered: every part of the name may be found, and not the name -/
theorem C69_first_false {E : Env} {maxSize : Nat} (h1 : 0x4000 ≤ maxSize) (h2 : maxSize < 2147483648) {P : Pool} {D : Doc} (h : Sess E maxSize P D) {b : Bool} (hl : D.syms b = []) (hn : (P.tab b).names = 0)
    {name : BStr} {t : XBT} (hnn : ∀ x ∈ name, x ≠ 0) (hroom : P.alloc + aa (name.length + 4) ≤ P.limit) {j : Nat} (hj : j < name.length) :
    ∃ C, P.KilledIn (P.firstStores b name t) C ∧ RecoversAs E C.file (D.withSym b (name.take j) t) ∧ ¬ Known ((D.withSym b (name.take j) t).syms b) name := by
  obtain ⟨⟨els, V, fl, k⟩, low⟩ := sess_both h1 h2 h
  obtain ⟨f1, f2, f3, f4, f5, f6, f7, f9, f8⟩ := first_placed k hl hn
  obtain ⟨-, -, r3⟩ := record_part f8.sees.ok b name t (by omega)
  have e := (setSyms_self D b (D.syms b) false).1
  have := begun_recovers (E := E) f8 low (p := name.take j) (t := t) f5 f4 (by rw [e]; exact f6) (by rw [e, hl]; decide) (n := name.length + 4) (by omega) (fun x hx => hnn x (List.mem_of_mem_take hx))
    (by rw [List.length_take]; omega)
  rw [withSym_any] at this
  refine ⟨_, ?_, this, ?_⟩
  · obtain ⟨done, rest, d1, d2⟩ := r3 j (by omega)
    unfold Pool.firstStores
    rw [d1]
    refine ⟨_ :: done, rest, rfl, ?_⟩
    have hcons : ∀ xs, P.stores (.tab b { P.tab b with names := P.alloc } :: xs) = (P.startNames b).stores xs := fun xs => by
      show (Pool.store1 P _ >>= fun S => S.stores _) = _
      rw [f1, Out.ok_bind]
    rw [hcons]
    exact d2
  · rintro ⟨s, s1, s2⟩
    have e2 : (D.withSym b (name.take j) t).syms b = D.syms b ++ [⟨name.take j, t⟩] := (setSyms_self D b _ _).1
    rw [e2, hl] at s1
    simp only [List.nil_append, List.mem_cons, List.not_mem_nil, or_false] at s1
    rw [s1] at s2
    simp only at s2
    have := congrArg List.length s2
    rw [List.length_take] at this
    omega

/-- after one of the crash points nothing can ever be registered in this table again: whatever the name and the type, the call fails -/
theorem C69_first_stuck {E : Env} {maxSize : Nat} (h1 : 0x4000 ≤ maxSize) (h2 : maxSize < 2147483648) {P : Pool} {D : Doc} (h : Sess E maxSize P D) {b : Bool} (hl : D.syms b = []) (hn : (P.tab b).names = 0)
    {name : BStr} {t : XBT} (hroom : P.alloc + aa (name.length + 4) ≤ P.limit) :
    ∃ C, P.KilledIn (P.firstStores b name t) C ∧ RecoversAs E C.file D ∧ ∀ n g, openFile E false n C.file = .ok (some g) → ∀ (name' : BStr) (t' : XBT), name' ≠ [] → (∀ x ∈ name', x ≠ 0) →
      g.pool.register b name' t' = .ok (g.pool, -1) := by
  obtain ⟨⟨els, V, fl, k⟩, low⟩ := sess_both h1 h2 h
  obtain ⟨f1, f2, f3, f4, f5, f6, f7, f9, f8⟩ := first_placed k hl hn
  have hA := f8.sees.ok
  obtain ⟨a1, a2, a3⟩ := alloc_part hA (size := name.length + 4) (by omega)
  have hge := aa_ge (name.length + 4)
  have hsy := (setSyms_self D b (D.syms b) false).1
  have g0 : Got (P.startNames b) ((P.startNames b).roomed (name.length + 4)) := roomed_got hA (by omega) fun i hi => memPut_frame _ _ _ _ (Or.inl hi)
  have kC := f8.got g0
  refine ⟨(P.startNames b).roomed (name.length + 4), ?_, RecoversAs.any (kC.recovers low), ?_⟩
  · unfold Pool.firstStores Pool.recordStores
    simp only
    rw [show 3 + name.length + 1 = name.length + 4 by omega]
    refine ⟨_ :: ((P.startNames b).allocStores NULL (name.length + 4)).1, _, rfl, Or.inl ?_⟩
    show (Pool.store1 P _ >>= fun S => S.stores _) = _
    rw [f1, Out.ok_bind]
    exact a1
  · intro n g hg name' t' hne hnn
    obtain ⟨o1, o2⟩ := kC.opened low E n
    rw [hg] at o1
    cases o1
    have htab := o2.tabs b
    rw [hsy] at htab
    have hnames : (((P.startNames b).roomed (name.length + 4)).tab b).names = ((P.startNames b).tab b).names := rfl
    have hal : ((P.startNames b).roomed (name.length + 4)).alloc = (P.startNames b).alloc + aa (name.length + 4) := rfl
    generalize hW : ({ (P.startNames b).roomed (name.length + 4) with mem := ((P.startNames b).roomed (name.length + 4)).file.mem } : Pool) = W at *
    have hWn : (W.tab b).names = ((P.startNames b).tab b).names := by rw [← hW]; rfl
    have hWi : (W.tab b).index = 0 := by rw [← hW]; exact f4
    have hWa : W.alloc = (P.startNames b).alloc + aa (name.length + 4) := by rw [← hW]; rfl
    show W.register b name' t' = .ok (W, -1)
    rw [register_placed_eq o2.sees.ok o2.sees.small htab (by rw [hWn]; exact f5) ⟨hne, hnn⟩ (by rw [hl]; simp)]
    split
    · rfl
    · unfold Pool.addSymbol Pool.open'
      rw [namesSize_ok o2.sees.ok htab, Out.ok_bind]
      simp only [setTab_self]
      rw [if_neg (fun hc => by have := hc.2; omega), hl]
      simp only [symsLen]
      unfold Pool.allocate
      rw [if_pos (by omega)]
      rfl

/-- the first attribute of a document with one tag -/
theorem first_case : ∃ D, Sess demoEnv 0x8000 clr1 D ∧ D.syms true = [⟨b8 "person", NULL⟩] ∧ D.syms false = [] := by
  have r1 : (Pool.empty 0x8000).register true (b8 "person") NULL = .ok (clr1, 0) := poolOfReg_eq (by decide +kernel)
  exact ⟨_, Sess.registered (E := demoEnv) (maxSize := 0x8000) Sess.start (by decide) (by decide) (Or.inl (by decide)) r1 (by decide), rfl, rfl⟩

/-- the theorems hold of registering it -/
example : ∃ D, Sess demoEnv 0x8000 clr1 D ∧ (∃ Q, clr1.register false (b8 "id") INT32 = .ok (Q, 0) ∧ clr1.stores (clr1.firstStores false (b8 "id") INT32) = .ok Q) ∧
    (∃ C, clr1.KilledIn (clr1.firstStores false (b8 "id") INT32) C ∧ RecoversAs demoEnv C.file (D.withSym false (b8 "i") INT32)) ∧
    (∀ C, clr1.KilledIn (clr1.firstStores false (b8 "id") INT32) C → RecoversAs demoEnv C.file D ∨
      ∃ j ≤ (b8 "id").length, ∃ t', (t' = INT32 ∨ j = 0 ∧ t' = NULL) ∧ RecoversAs demoEnv C.file (D.withSym false ((b8 "id").take j) t')) ∧
    ∃ C, clr1.KilledIn (clr1.firstStores false (b8 "id") INT32) C ∧ ∃ g, openFile demoEnv false 0 C.file = .ok (some g) ∧ g.pool.register false (b8 "id") INT32 = .ok (g.pool, -1) := by
  obtain ⟨D, d1, d2, d3⟩ := first_case
  have hn : (clr1.tab false).names = 0 := by decide +kernel
  have hr : clr1.alloc + aa ((b8 "id").length + 4) ≤ clr1.limit := by decide +kernel
  obtain ⟨Q, hq⟩ : ∃ Q, clr1.register false (b8 "id") INT32 = .ok (Q, 0) := ⟨_, poolOfReg_eq (by decide +kernel)⟩
  refine ⟨D, d1, ⟨Q, hq, (C69_first_stores (by decide) (by decide) d1 d3 hn (by decide) (by decide) (fun _ => ⟨by decide, by rw [d2]; simp⟩) hr).1 hq⟩, ?_,
    fun C hC => C69_first_partial (by decide) (by decide) d1 d3 hn (by decide) hr hC, ?_⟩
  · obtain ⟨C, c1, c2, -⟩ := C69_first_false (t := INT32) (by decide) (by decide) d1 d3 hn (by decide) hr (j := 1) (by decide)
    exact ⟨C, c1, c2⟩
  · obtain ⟨C, c1, c2, c3⟩ := C69_first_stuck (t := INT32) (by decide) (by decide) d1 d3 hn hr
    obtain ⟨g, hg, -⟩ := c2.1 0
    exact ⟨C, c1, g, hg, c3 0 g hg _ _ (by decide) (by decide)⟩

end BX
