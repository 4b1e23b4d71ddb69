import Verif.Lemmas.DictOver
import Verif.Props.Rings
/-
C38: registered names resolve both ways. C39: clearing a document drops the elements and keeps the dictionary.
Statements are about the histories `Sess` (Spec/Session.lean) of a writable document: elements are made, linked and changed, symbols are
registered and the document is cleared, in any order.
-/
namespace BX
open XBT Spec

/-! ### C38 -/

/-- C38: after any history, the name of every identification is the registered one and looking the name up gives the identification.
When all symbols have been registered, the name and the type can be asked for by the identification.
Partial: the histories `Sess` have at most 128 symbols of a kind, with names that are not empty (see the `_false` theorems). -/
theorem C38_names_partial (E : Env) (maxSize : Nat) (h1 : 0x4000 ≤ maxSize) (h2 : maxSize < 2147483648) (P : Pool) (D : Doc) (h : Sess E maxSize P D) (tags : Bool) (i : Nat) (hi : i < (D.syms tags).length) :
    P.getName (P.tab tags) i = .ok (some (D.syms tags)[i].name) ∧
    (∃ x, P.getByName (P.tab tags) (D.syms tags)[i].name = .ok (some x) ∧ x.id = i) ∧
    (D.ready tags = true → P.symName tags i = .ok (some (D.syms tags)[i].name) ∧ P.symType tags i = .ok (some (D.syms tags)[i].type)) := by
  obtain ⟨els, V, fl, k⟩ := sess_keeps h1 h2 h
  have ht := k.tabs tags
  refine ⟨getName_ok k.sees.ok k.sees.small ht hi, ?_, fun hr => ?_⟩
  · have hmem := List.getElem_mem hi
    rw [getByName_ok k.sees.ok k.sees.small ht (ht.good _ hmem)]
    cases hf : findRec (D.syms tags)[i].name (P.tab tags).names 0 (D.syms tags) with
    | none => exact absurd rfl (findRec_none _ hf _ hmem)
    | some x =>
      obtain ⟨l1, s, l2, e, f2, f3, rfl⟩ := findRec_some _ hf
      refine ⟨_, rfl, ?_⟩
      have hlt : l1.length < (D.syms tags).length := by rw [e]; simp
      have hh : ((D.syms tags).map (·.name))[l1.length]'(by simpa using hlt) = ((D.syms tags).map (·.name))[i]'(by simpa using hi) := by
        rw [List.getElem_map, List.getElem_map, ← f2]
        congr 1
        simp [e]
      have := (List.getElem_inj ht.nodup).1 hh
      simp only; omega
  · have hidx := k.rdy tags hr (List.ne_nil_of_mem (List.getElem_mem hi))
    exact ⟨symName_ok k.sees.ok k.sees.small ht hidx hi, symType_ok k.sees.ok k.sees.small ht hidx hi⟩

/-- C38: a name that has not been registered is not found, and the names of two symbols differ -/
theorem C38_absent_partial (E : Env) (maxSize : Nat) (h1 : 0x4000 ≤ maxSize) (h2 : maxSize < 2147483648) (P : Pool) (D : Doc) (h : Sess E maxSize P D) (tags : Bool) :
    (∀ name : BStr, name ≠ [] → (∀ x ∈ name, x ≠ 0) → ¬ Known (D.syms tags) name → P.getByName (P.tab tags) name = .ok none) ∧
    (∀ i j (hi : i < (D.syms tags).length) (hj : j < (D.syms tags).length), (D.syms tags)[i].name = (D.syms tags)[j].name → i = j) := by
  obtain ⟨els, V, fl, k⟩ := sess_keeps h1 h2 h
  have ht := k.tabs tags
  constructor
  · intro name hn1 hn2 hk
    rw [getByName_ok k.sees.ok k.sees.small ht ⟨hn1, hn2⟩]
    cases hf : findRec name (P.tab tags).names 0 (D.syms tags) with
    | none => rfl
    | some x =>
      obtain ⟨l1, s, l2, e, f2, -⟩ := findRec_some _ hf
      exact absurd ⟨s, by rw [e]; simp, f2⟩ hk
  · intro i j hi hj he
    have : ((D.syms tags).map (·.name))[i]'(by simpa using hi) = ((D.syms tags).map (·.name))[j]'(by simpa using hj) := by
      rw [List.getElem_map, List.getElem_map]; exact he
    exact (List.getElem_inj ht.nodup).1 this

/-- C38: the identification returned for a name is its position among the registered names. A refused registration changes no symbol. -/
theorem C38_register_partial (E : Env) (maxSize : Nat) (h1 : 0x4000 ≤ maxSize) (h2 : maxSize < 2147483648) (P Q : Pool) (D : Doc) (h : Sess E maxSize P D) (tags : Bool) (name : BStr) (t : XBT) (id : Int)
    (hn1 : name ≠ []) (hn2 : ∀ x ∈ name, x ≠ 0) (hfew : (D.syms tags).length < 128 ∨ Known (D.syms tags) name) (ho : P.register tags name t = .ok (Q, id)) :
    (id = -1 ∧ ∃ D', Sess E maxSize Q D' ∧ D'.syms = D.syms) ∨
    (∃ i : Nat, id = i ∧ position name (registered (D.syms tags) name t) = some i ∧ ∃ D', Sess E maxSize Q D' ∧ D'.syms tags = registered (D.syms tags) name t ∧ ∀ b, b ≠ tags → D'.syms b = D.syms b) := by
  obtain ⟨els, V, fl, k⟩ := sess_keeps h1 h2 h
  have hself : ∀ i, inNames (P.tab tags) (D.syms tags) i → ¬ inIndex (P.tab tags) (D.syms tags) i := fun i i1 i2 => by
    have := k.apart (.names tags) (.index tags) i i1 i2
    cases this
  rcases register_spec k.sees.ok k.sees.small (k.tabs tags) hself ⟨hn1, hn2⟩ hfew ho with ⟨e, -⟩ | ⟨i, e1, e2, -⟩
  · refine Or.inl ⟨e, _, .unregistered h hn1 hn2 hfew ho (by omega), ?_⟩
    funext c
    unfold Doc.setSyms
    simp only
    split
    · rename_i hc; rw [hc]
    · rfl
  · exact Or.inr ⟨i, e2, e1, _, .registered h hn1 hn2 hfew ho (by omega), (setSyms_self _ _ _ _).1, fun b hb => (setSyms_other _ _ _ hb).1⟩

/-- C38: registering a known name again gives the same identification -/
theorem C38_again_partial (E : Env) (maxSize : Nat) (h1 : 0x4000 ≤ maxSize) (h2 : maxSize < 2147483648) (P : Pool) (D : Doc) (h : Sess E maxSize P D) (tags : Bool) (i : Nat) (hi : i < (D.syms tags).length) (t : XBT)
    (ht : tags = false → t ≠ LAST) : ∃ Q, P.register tags (D.syms tags)[i].name t = .ok (Q, i) := by
  obtain ⟨els, V, fl, k⟩ := sess_keeps h1 h2 h
  exact register_old_ok k.sees.ok k.sees.small (k.tabs tags) hi ht

/-- C38: registering a new name succeeds while there is room, and gives the next identification -/
theorem C38_new_partial (E : Env) (maxSize : Nat) (h1 : 0x4000 ≤ maxSize) (h2 : maxSize < 2147483648) (P : Pool) (D : Doc) (h : Sess E maxSize P D) (tags : Bool) (name : BStr) (t : XBT)
    (hn1 : name ≠ []) (hn2 : ∀ x ∈ name, x ≠ 0) (hnew : ¬ Known (D.syms tags) name) (hstart : D.syms tags ≠ [] ∨ (P.tab tags).names = 0 ∧ (P.tab tags).index = 0)
    (hattr : tags = false → t ≠ LAST ∧ D.syms true ≠ []) (hroom : P.alloc + symsLen (D.syms tags) + name.length + 7 ≤ P.limit) :
    ∃ Q, P.register tags name t = .ok (Q, (D.syms tags).length) := by
  obtain ⟨els, V, fl, k⟩ := sess_keeps h1 h2 h
  have := aa_lt (name.length + 4)
  obtain ⟨Q, hQ, -⟩ := register_new_ok (t := t) k.sees.ok k.sees.small (k.tabs tags) ⟨hn1, hn2⟩ (fun s hs he => hnew ⟨s, hs, he⟩) (by omega) hstart
    (fun hb => ⟨(hattr hb).1, (k.tabs true).some (hattr hb).2⟩)
  exact ⟨Q, hQ⟩

/-! #### 128 symbols -/

/-- 128 different names of one character -/
def name1 (i : Nat) : BStr := [UInt8.ofNat (i + 1)]

theorem name1_inj {i j : Nat} (hi : i < 200) (hj : j < 200) (h : name1 i = name1 j) : i = j := by
  unfold name1 at h
  have := congrArg (fun l => (l.headD 0).toNat) h
  simp at this
  omega

theorem name1_good {i : Nat} (hi : i < 200) : name1 i ≠ [] ∧ ∀ x ∈ name1 i, x ≠ 0 := by
  refine ⟨by simp [name1], fun x hx h0 => ?_⟩
  simp only [name1, List.mem_singleton] at hx
  rw [hx] at h0
  have := congrArg UInt8.toNat h0
  simp at this
  omega

theorem symsLen_1 (n : Nat) : symsLen ((List.range n).map fun i => ⟨name1 i, INT32⟩) = 8 * n := by
  induction n with
  | zero => rfl
  | succ n ih =>
    rw [List.range_succ, List.map_append, symsLen_append, ih]
    simp [symsLen, recLen, name1, aa]
    omega

/-- a history in which `n` tags are registered -/
theorem tags_sess (n : Nat) (hn : n ≤ 128) : ∃ P D, Sess demoEnv 0x8000 P D ∧ D.syms true = (List.range n).map (fun i => (⟨name1 i, INT32⟩ : Sym)) ∧ P.alloc = 92 + 8 * n ∧ P.limit = 0x4000 ∧ (P.tab true).index = 0 ∧
    (n = 0 → (P.tab true).names = 0) := by
  induction n with
  | zero => exact ⟨_, _, .start, rfl, by decide, by decide, rfl, fun _ => rfl⟩
  | succ n ih =>
    obtain ⟨P, D, h, h1, h2, h3, h4, h5⟩ := ih (by omega)
    obtain ⟨els, V, fl, k⟩ := sess_keeps (by decide) (by decide) h
    have hg := name1_good (i := n) (by omega)
    have hnew : ∀ s ∈ D.syms true, s.name ≠ name1 n := by
      intro s hs he
      rw [h1, List.mem_map] at hs
      obtain ⟨j, hj, rfl⟩ := hs
      rw [List.mem_range] at hj
      have := name1_inj (by omega) (by omega) he
      omega
    have hlen : (D.syms true).length = n := by rw [h1]; simp
    have hsl : symsLen (D.syms true) = 8 * n := by rw [h1]; exact symsLen_1 n
    have ha : aa ((name1 n).length + 4) = 8 := by simp [name1, aa]
    have hph : poolHeader = 92 := rfl
    have hcase : (D.syms true = [] ∧ n = 0) ∨ (D.syms true ≠ [] ∧ (P.tab true).names + symsLen (D.syms true) = P.alloc) := by
      by_cases h0 : n = 0
      · exact Or.inl ⟨by rw [h1, h0]; rfl, h0⟩
      · have hne : D.syms true ≠ [] := fun he => by rw [he] at hlen; simp at hlen; omega
        have := (k.tabs true).names ((k.tabs true).some hne)
        exact Or.inr ⟨hne, by omega⟩
    have hfresh : Fresh (P.tab true) (D.syms true) := by
      rcases hcase with hc | hc
      · exact Or.inr ⟨h5 hc.2, h4⟩
      · exact Or.inl hc.1
    obtain ⟨Q, q1, q2, q3, q4, q5⟩ := register_new_ok (b := true) (t := INT32) k.sees.ok k.sees.small (k.tabs true) (name := name1 n) hg hnew (by omega) hfresh (by simp)
    have hs' := Sess.registered h hg.1 hg.2 (Or.inl (by omega)) q1 (by omega)
    have hreg : registered (D.syms true) (name1 n) INT32 = (List.range (n + 1)).map (fun i => (⟨name1 i, INT32⟩ : Sym)) := by
      rw [registered_new hnew, h1, List.range_succ, List.map_append]; rfl
    refine ⟨Q, _, hs', by rw [(setSyms_self _ _ _ _).1, hreg], ?_, by omega, q4, by simp⟩
    rw [q5 ⟨h4, ?_⟩]
    · omega
    · rcases hcase with hc | hc
      · exact Or.inl (h5 hc.2)
      · exact Or.inr hc.2

/-- C38 is false from identification 128 on: whenever 128 tags are registered (and there is room), a new name gets 128, looking it up gives
-128, and the next new name gets 128, too. -/
theorem C38_128_false (E : Env) (maxSize : Nat) (h1 : 0x4000 ≤ maxSize) (h2 : maxSize < 2147483648) (P : Pool) (D : Doc) (h : Sess E maxSize P D) (hlen : (D.syms true).length = 128)
    (n1 n2 : BStr) (t1 t2 : XBT) (hg1 : n1 ≠ [] ∧ ∀ x ∈ n1, x ≠ 0) (hg2 : n2 ≠ [] ∧ ∀ x ∈ n2, x ≠ 0) (hne : n1 ≠ n2) (hk1 : ¬ Known (D.syms true) n1) (hk2 : ¬ Known (D.syms true) n2)
    (hroom : P.alloc + 2 * symsLen (D.syms true) + n1.length + n2.length + 14 ≤ P.limit) :
    ∃ Q x R, P.register true n1 t1 = .ok (Q, 128) ∧ Q.getByName (Q.tab true) n1 = .ok (some x) ∧ x.id = -128 ∧ Q.register true n2 t2 = .ok (R, 128) := by
  obtain ⟨els, V, fl, k⟩ := sess_keeps h1 h2 h
  have a1 := aa_lt (n1.length + 4)
  have a2 := aa_lt (n2.length + 4)
  obtain ⟨Q, q1, q2, q3, q4⟩ := register_128 (t := t1) k.sees.ok k.sees.small (k.tabs true) hlen hg1 (fun s hs he => hk1 ⟨s, hs, he⟩) (by omega)
  obtain ⟨x, x1, x2⟩ := q2.find hg1 (fun s hs he => hk1 ⟨s, hs, he⟩)
  obtain ⟨R, r1⟩ := q2.again hg1 (t := t2) hg2 hne (fun s hs he => hk2 ⟨s, hs, he⟩) (by omega)
  exact ⟨Q, x, R, q1, x1, x2, r1⟩

/-- 128 tags can be registered, the first "\x01", the last "\x80"; then "\x81" and "\x82" both get 128 -/
example : ∃ P D Q x R, Sess demoEnv 0x8000 P D ∧ (D.syms true).length = 128 ∧ P.register true (name1 128) INT32 = .ok (Q, 128) ∧ Q.getByName (Q.tab true) (name1 128) = .ok (some x) ∧ x.id = -128 ∧
    Q.register true (name1 129) INT32 = .ok (R, 128) := by
  obtain ⟨P, D, h, h1, h2, h3, h4, h5⟩ := tags_sess 128 (Nat.le_refl _)
  have hlen : (D.syms true).length = 128 := by rw [h1]; simp
  have hk : ∀ i, 128 ≤ i → i < 200 → ¬ Known (D.syms true) (name1 i) := by
    rintro i i1 i2 ⟨s, hs, he⟩
    rw [h1, List.mem_map] at hs
    obtain ⟨j, hj, rfl⟩ := hs
    rw [List.mem_range] at hj
    have := name1_inj (by omega) (by omega) he
    omega
  obtain ⟨Q, x, R, q⟩ := C38_128_false demoEnv 0x8000 (by decide) (by decide) P D h hlen (name1 128) (name1 129) INT32 INT32 (name1_good (by omega)) (name1_good (by omega))
    (fun he => by have := name1_inj (by omega) (by omega) he; omega) (hk _ (by omega) (by omega)) (hk _ (by omega) (by omega)) (by rw [h1, symsLen_1]; simp [name1]; omega)
  exact ⟨P, D, Q, x, R, h, hlen, q⟩

/-- five tags, and the third name -/
example : ∃ P D, Sess demoEnv 0x8000 P D ∧ (D.syms true).length = 5 ∧ P.getName (P.tab true) 2 = .ok (some [3]) ∧ (∃ x, P.getByName (P.tab true) [3] = .ok (some x) ∧ x.id = 2) ∧
    P.getByName (P.tab true) [9] = .ok none ∧ ∃ Q, P.register true [9] STRING = .ok (Q, 5) := by
  obtain ⟨P, D, h, h1, h2, h3, h4, h5⟩ := tags_sess 5 (by decide)
  have hlen : (D.syms true).length = 5 := by rw [h1]; simp
  have hn : (D.syms true)[2].name = [3] := by simp [h1, name1]
  have hk : ¬ Known (D.syms true) [9] := by
    rintro ⟨s, hs, he⟩
    rw [h1, List.mem_map] at hs
    obtain ⟨j, hj, rfl⟩ := hs
    rw [List.mem_range] at hj
    have := name1_inj (i := j) (j := 8) (by omega) (by omega) he
    omega
  obtain ⟨a, b, c⟩ := C38_names_partial demoEnv 0x8000 (by decide) (by decide) P D h true 2 (by omega)
  have hab := (C38_absent_partial demoEnv 0x8000 (by decide) (by decide) P D h true).1 [9] (by simp) (by simp) hk
  obtain ⟨Q, hq⟩ := C38_new_partial demoEnv 0x8000 (by decide) (by decide) P D h true [9] STRING (by simp) (by simp) hk (Or.inl fun he => by rw [he] at hlen; simp at hlen) (by simp) (by rw [h1, symsLen_1]; simp; omega)
  rw [hn] at a b
  exact ⟨P, D, h, hlen, a, b, hab, Q, by rw [hq, hlen]; rfl⟩

/-! #### other failures -/

/-- the pool of a registration -/
def poolOfReg (r : Out (Pool × Int)) : Pool :=
  match r with
  | .ok (P, _) => P
  | _ => Pool.empty 0

theorem poolOfReg_eq {r : Out (Pool × Int)} {i : Int} (h : (match r with | .ok (_, x) => x == i | _ => false) = true) : r = .ok (poolOfReg r, i) := by
  match r, h with
  | .ok (P, x), h => rw [show x = i by simpa using h]; rfl

/-- an attribute is registered before any tag -/
def early1 : Pool := poolOfReg ((Pool.empty 0x8000).register false (b8 "id") INT32)
def early2 : Pool := poolOfReg (early1.register true (b8 "person") NULL)

/-- C38 is false when an attribute is registered before any tag: this is refused, and the attribute cannot be registered after the first tag, either. -/
theorem C38_attribute_first_false : (Pool.empty 0x8000).register false (b8 "id") INT32 = .ok (early1, -1) ∧ early1.register true (b8 "person") NULL = .ok (early2, 0) ∧
    ∃ Q, early2.register false (b8 "id") INT32 = .ok (Q, -1) :=
  ⟨poolOfReg_eq (by decide +kernel), poolOfReg_eq (by decide +kernel), _, poolOfReg_eq (by decide +kernel)⟩

/-- after the import of no symbols -/
def import1 : Pool := (Pool.empty 0x8000).setFast true
def import2 : Pool := poolOfReg (import1.register true (b8 "person") NULL)

/-- C38 is false after tags have been imported from nowhere into an empty table: a name that is registered twice gets two identifications. -/
theorem C38_import_false : (Pool.empty 0x8000).importSyms true none = .ok import1 ∧ import1.register true (b8 "person") NULL = .ok (import2, 0) ∧
    ∃ Q, import2.register true (b8 "person") NULL = .ok (Q, 1) :=
  ⟨rfl, poolOfReg_eq (by decide +kernel), _, poolOfReg_eq (by decide +kernel)⟩

/-- two tags whose names have a length of 1 mod 4 -/
def empty1 : Pool := poolOfReg ((Pool.empty 0x8000).register true (b8 "a") NULL)
def empty2 : Pool := poolOfReg (empty1.register true (b8 "b") NULL)

/-- C38 is false for the empty name: it has not been registered, but registering it gives the identification of the first tag. -/
theorem C38_empty_name_false : (Pool.empty 0x8000).register true (b8 "a") NULL = .ok (empty1, 0) ∧ empty1.register true (b8 "b") NULL = .ok (empty2, 1) ∧
    ∃ Q, empty2.register true [] NULL = .ok (Q, 0) :=
  ⟨poolOfReg_eq (by decide +kernel), poolOfReg_eq (by decide +kernel), _, poolOfReg_eq (by decide +kernel)⟩

/-! ### C39 -/

/-- C39: after a successful Clear, whatever the history was, there is no element and no root, the symbols are as before (their names and
types can be asked for, and the names can be looked up), and the following calls are a history of a document that contains nothing but these
symbols. All memory but that of the symbols is free.
Partial: Clear may fail, see `C39_refused_false`. -/
theorem C39_clear_partial (E : Env) (maxSize : Nat) (h1 : 0x4000 ≤ maxSize) (h2 : maxSize < 2147483648) (P Q : Pool) (D : Doc) (h : Sess E maxSize P D) (hc : P.clear = .ok (Q, true)) :
    Sess E maxSize Q D.cleared ∧ (∀ e, ¬ D.cleared.forest.Elem e) ∧ Q.root = 0 ∧ D.cleared.syms = D.syms ∧
    (∀ (tags : Bool) (i : Nat) (hi : i < (D.syms tags).length), Q.getName (Q.tab tags) i = .ok (some (D.syms tags)[i].name) ∧ Q.symName tags i = .ok (some (D.syms tags)[i].name) ∧
      Q.symType tags i = .ok (some (D.syms tags)[i].type) ∧ ∃ x, Q.getByName (Q.tab tags) (D.syms tags)[i].name = .ok (some x) ∧ x.id = i) ∧
    (∀ (tags : Bool) (name : BStr), name ≠ [] → (∀ x ∈ name, x ≠ 0) → ¬ Known (D.syms tags) name → Q.getByName (Q.tab tags) name = .ok none) ∧
    Q.alloc = poolHeader + symsLen (D.syms true) + symsLen (D.syms false) + 4 * (D.syms true).length + 4 * (D.syms false).length ∧ Q.fileSize = P.fileSize := by
  have hs := Sess.cleared h hc
  obtain ⟨els, V, fl, k⟩ := sess_keeps h1 h2 h
  obtain ⟨c1, c2, c3, c4, c5, c6, c7, c8, c9, c10, c11, c12, c13⟩ := clear_spec k.sees.ok k.sees.small (k.tabs true) (k.tabs false) hc
  refine ⟨hs, ?_, c4, rfl, fun tags i hi => ?_, fun tags name n1 n2 n3 => ?_, c13, c2⟩
  · rintro e ⟨l, hl⟩
    simp [Doc.cleared, Doc.empty, Forest.none] at hl
  · obtain ⟨a, b, c⟩ := C38_names_partial E maxSize h1 h2 Q D.cleared hs tags i hi
    exact ⟨a, (c rfl).1, (c rfl).2, b⟩
  · exact (C38_absent_partial E maxSize h1 h2 Q D.cleared hs tags).1 name n1 n2 n3

/-- C39: Clear succeeds when the symbols have not moved: all tags have been registered first, then all attributes (or none), and there is room
for the tables of symbols. -/
theorem C39_succeeds_partial (E : Env) (maxSize : Nat) (h1 : 0x4000 ≤ maxSize) (h2 : maxSize < 2147483648) (P : Pool) (D : Doc) (h : Sess E maxSize P D) (ht : P.tags.names = poolHeader)
    (hp : P.params.names = poolHeader + symsLen (D.syms true) ∨ D.syms false = [])
    (hroom : poolHeader + symsLen (D.syms true) + symsLen (D.syms false) + 4 * (D.syms true).length + 4 * (D.syms false).length ≤ P.limit) : ∃ Q, P.clear = .ok (Q, true) := by
  obtain ⟨els, V, fl, k⟩ := sess_keeps h1 h2 h
  exact clear_ok k.sees.ok k.sees.small (k.tabs true) (k.tabs false) ht hp hroom

/-- C39: a document that has been cleared can be cleared again after elements have been made and removed, because the symbols do not move -/
theorem C39_again_partial (E : Env) (maxSize : Nat) (h1 : 0x4000 ≤ maxSize) (h2 : maxSize < 2147483648) (P Q : Pool) (D : Doc) (h : Sess E maxSize P D) (hc : P.clear = .ok (Q, true)) :
    Q.tags.names = poolHeader ∧ Q.params.names = poolHeader + symsLen (D.syms true) := by
  obtain ⟨els, V, fl, k⟩ := sess_keeps h1 h2 h
  obtain ⟨c1, c2, c3, c4, c5, c6, c7, c8, c9, c10, c11, c12, c13⟩ := clear_spec k.sees.ok k.sees.small (k.tabs true) (k.tabs false) hc
  exact ⟨c9, c10⟩

/-- a tag, an attribute, an element, which is the root -/
def clr1 : Pool := poolOfReg ((Pool.empty 0x8000).register true (b8 "person") NULL)
def clr2 : Pool := poolOfReg (clr1.register false (b8 "id") INT32)
def clr3 : Pool := poolOf (clr2.make demoEnv 0 NULL 0 1 0 [])
def clr4 : Pool := poolOf' (clr3.setRoot (some 112))
/-- another tag -/
def clr5 : Pool := poolOfReg (clr4.register true (b8 "car") NULL)

theorem clr_sess4 : ∃ D, Sess demoEnv 0x8000 clr4 D ∧ D.syms true = [⟨b8 "person", NULL⟩] ∧ D.syms false = [⟨b8 "id", INT32⟩] ∧ D.root = 112 ∧ D.forest.Elem 112 := by
  have r1 : (Pool.empty 0x8000).register true (b8 "person") NULL = .ok (clr1, 0) := poolOfReg_eq (by decide +kernel)
  have r2 : clr1.register false (b8 "id") INT32 = .ok (clr2, 0) := poolOfReg_eq (by decide +kernel)
  have r3 : clr2.make demoEnv 0 NULL 0 (tagFlag true) (sizeField NULL 0).length [] = .ok (clr3, some 112) := poolOf_eq (by decide +kernel)
  have r4 : clr3.setRoot (some ((112 : Nat) : Int)) = .ok clr4 := poolOf'_eq (by decide +kernel)
  have s1 := Sess.registered (E := demoEnv) (maxSize := 0x8000) Sess.start (by decide) (by decide) (Or.inl (by decide)) r1 (by decide)
  have s2 := Sess.registered s1 (by decide) (by decide) (Or.inl (by decide)) r2 (by decide)
  have s3 := Sess.made (k := 0) s2 ⟨by decide, by decide⟩ (by decide) r3 rfl
  have s4 := Sess.rooted s3 (e := 112) ⟨.loose 0, by simp [Doc.plus, Forest.put]⟩ r4
  refine ⟨_, s4, rfl, rfl, rfl, ⟨.loose 0, by simp [Doc.plus, Forest.put]⟩⟩

/-- the document of one element can be cleared -/
example : ∃ D Q, Sess demoEnv 0x8000 clr4 D ∧ D.forest.Elem 112 ∧ clr4.clear = .ok (Q, true) ∧ Q.root = 0 ∧ Q.symName true 0 = .ok (some (b8 "person")) ∧ Q.symType false 0 = .ok (some INT32) := by
  obtain ⟨D, h, h1, h2, h3, h4⟩ := clr_sess4
  obtain ⟨Q, hQ⟩ := C39_succeeds_partial demoEnv 0x8000 (by decide) (by decide) clr4 D h (by decide +kernel) (Or.inl (by rw [h1]; decide +kernel)) (by rw [h1, h2]; decide +kernel)
  obtain ⟨-, -, c1, -, c2, -⟩ := C39_clear_partial demoEnv 0x8000 (by decide) (by decide) clr4 Q D h hQ
  have a := c2 true 0 (by rw [h1]; decide)
  have b := c2 false 0 (by rw [h2]; decide)
  simp only [h1, h2] at a b
  exact ⟨D, Q, h, h4, hQ, c1, a.2.1, b.2.2.1⟩

/-- C39 is false when a tag has been registered after the attributes: Clear fails, but the root is lost. -/
theorem C39_refused_false : (∃ D, Sess demoEnv 0x8000 clr4 D) ∧ clr4.register true (b8 "car") NULL = .ok (clr5, 1) ∧ clr5.root = 112 ∧
    ∃ Q, clr5.clear = .ok (Q, false) ∧ Q.root = 0 := by
  refine ⟨clr_sess4.imp fun _ h => h.1, poolOfReg_eq (by decide +kernel), by decide +kernel, ?_⟩
  have h : (match clr5.clear with | .ok (Q, r) => !r && Q.root == 0 | _ => false) = true := by decide +kernel
  match hc : clr5.clear with
  | .ok (Q, r) =>
    rw [hc] at h
    simp at h
    exact ⟨Q, by rw [h.1], h.2⟩
  | .fail => rw [hc] at h; simp at h
  | .ub => rw [hc] at h; simp at h

end BX
