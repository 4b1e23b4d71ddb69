import Verif.Props.Source
import Verif.Lemmas.RegisterId
import Verif.Lemmas.DictAlter
/-
C65: closing a writable document and opening it again. C66: registering symbols with given identifications. C67: changing the type of a symbol.
-/
namespace BX
open XBT Spec

/-! ### C65 -/

/-- C65: whatever the history of the document was, and whatever size is asked for, its file can be opened again, it is opened for checking, and it holds the
same document: the history continues (all other results about histories apply to it), and all fields and all bytes behind the header are the same. -/
theorem C65_reopen (E : Env) (maxSize : Nat) (h1 : 0x4000 ≤ maxSize) (h2 : maxSize < 2147483648) (P : Pool) (D : Doc) (h : Sess E maxSize P D) (n : Nat) :
    ∃ g, openFile E false n P.file = .ok (some g) ∧ Sess E maxSize g.pool D ∧ g.check = true ∧ g.failures = 0 ∧
      g.pool.fileSize = P.fileSize ∧ g.pool.mmapSize = P.mmapSize ∧ g.pool.root = P.root ∧ g.pool.alloc = P.alloc ∧ g.pool.limit = P.limit ∧ g.pool.tags = P.tags ∧ g.pool.params = P.params ∧
      ∀ i, 92 ≤ i → g.pool.mem i = P.mem i := by
  obtain ⟨⟨els, V, fl, k⟩, low⟩ := sess_both h1 h2 h
  have ho := (k.opened low E n).1
  exact ⟨_, ho, .reopened h ho, rfl, rfl, rfl, rfl, rfl, rfl, rfl, rfl, rfl, file_mem P⟩

/-- the history of `desk_doc`, its document closed and opened again -/
example : ∃ g, openFile demoEnv false 0 (desk5 INT32).file = .ok (some g) ∧ Sess demoEnv 0x8000 g.pool deskDoc ∧ deskDoc.syms true ≠ [] :=
  let ⟨g, a, b, _⟩ := C65_reopen demoEnv 0x8000 (by decide) (by decide) _ _ desk_doc 0
  ⟨g, a, b, by decide⟩

/-- C65: enumeration shows the same children and attributes after the document has been opened again, with the same identifications. -/
theorem C65_enumerate (E : Env) (maxSize : Nat) (h1 : 0x4000 ≤ maxSize) (h2 : maxSize < 2147483648) (P : Pool) (D : Doc) (h : Sess E maxSize P D) (n : Nat) (g : Plug)
    (ho : openFile E false n P.file = .ok (some g)) (p : Nat) (hp : D.forest.Elem p) (fuel : Nat) (hf : (D.forest.at' (.kids p)).length < fuel) (hf' : (D.forest.at' (.attrs p)).length < fuel) :
    g.pool.forwards p fuel 0 = P.forwards p fuel 0 ∧ g.pool.listAt p 20 fuel = P.listAt p 20 fuel ∧ g.pool.eId p = P.eId p := by
  obtain ⟨els, V, fl, k⟩ := sess_keeps h1 h2 h
  obtain ⟨els', V', fl', k'⟩ := sess_keeps h1 h2 (Sess.reopened h ho)
  have m := (k.lists.mem p).1 hp
  have m' := (k'.lists.mem p).1 hp
  refine ⟨?_, ?_, ?_⟩
  · rw [enum_forwards k.sees k.lists m hf, enum_forwards k'.sees k'.lists m' hf]
  · rw [enum_list k.sees k.lists m (Or.inr rfl) hf', enum_list k'.sees k'.lists m' (Or.inr rfl) hf']
  · rw [(k.elem p m).eId k.sees.size.1, (k'.elem p m').eId k'.sees.size.1]

/-- C65: with the flag to always create a new document, the file of any history becomes an empty document, although its old bytes stay behind the header. -/
theorem C65_new (E : Env) (maxSize : Nat) (h1 : 0x4000 ≤ maxSize) (h2 : maxSize < 2147483648) (P : Pool) (D : Doc) (h : Sess E maxSize P D) (n : Nat) (ht : E.trunc 0x4000 = true) :
    ∃ g, openFile E true n P.file = .ok (some g) ∧ Sess E P.mmapSize g.pool Doc.empty ∧ g.check = false ∧ 0x4000 ≤ g.pool.fileSize := by
  obtain ⟨⟨els, V, fl, k⟩, low⟩ := sess_both h1 h2 h
  obtain ⟨-, -, -, a4, -⟩ := file_fields P
  have p1 := k.sees.ok.head; have p2 := k.sees.ok.le; have p3 := k.sees.ok.lim; have p4 := k.sees.ok.map; have hs := k.sees.small
  have hh : poolHeader = 92 := rfl
  have hsz : P.file.size = P.fileSize := rfl
  unfold openFile
  rw [if_neg (by omega), field_ok a4 (isI32_of_lt (by omega)), if_neg (by omega), if_pos rfl, Int.toNat_natCast]
  unfold initEmpty
  rw [if_pos ht]
  exact ⟨_, rfl, .created, rfl, Nat.le_refl _⟩

example : ∃ g, openFile demoEnv true 0 (desk5 INT32).file = .ok (some g) ∧ Sess demoEnv (desk5 INT32).mmapSize g.pool Doc.empty :=
  let ⟨g, a, b, _⟩ := C65_new demoEnv 0x8000 (by decide) (by decide) _ _ desk_doc 0 rfl
  ⟨g, a, b⟩

/-- C65: a file that does not exist or is smaller than the header becomes an empty document of the size asked for. -/
theorem C65_fresh (E : Env) (always : Bool) (n : Nat) (f : Img) (hf : f.size < 92) (ht : E.trunc 0x4000 = true) :
    ∃ g, openFile E always n f = .ok (some g) ∧ Sess E n g.pool Doc.empty ∧ g.check = false ∧ g.pool.mmapSize = n := by
  unfold openFile initEmpty
  rw [if_pos hf, if_pos ht]
  exact ⟨_, rfl, .created, rfl, rfl⟩

example : ∃ g, openFile demoEnv false 0x8000 ⟨fun _ => 7, 50⟩ = .ok (some g) ∧ Sess demoEnv 0x8000 g.pool Doc.empty :=
  let ⟨g, a, b, _⟩ := C65_fresh demoEnv false 0x8000 ⟨fun _ => 7, 50⟩ (by decide) rfl
  ⟨g, a, b⟩

/-- C65: a file that is not a writable document (without the identification, or of another version, or whose size is not the one in the header) is refused. -/
theorem C65_foreign (E : Env) (n : Nat) (f : Img) (hf : 92 ≤ f.size) (h : slice f.mem 4 22 ≠ b8 "binary_xml.pksoft.org" ++ [0] ∨ f.field 28 ≠ 0 ∨ f.field 32 ≠ f.size) :
    openFile E false n f = .ok none := by
  unfold openFile
  rw [if_neg (by omega)]
  split
  · rfl
  · rw [if_neg (by simp)]
    unfold checkExisting
    rw [if_pos]
    · rfl
    · rcases h with h | h | h
      · exact Or.inl h
      · exact Or.inr (Or.inl h)
      · exact Or.inr (Or.inr (Or.inl h))

example : openFile demoEnv false 0x8000 ⟨fun _ => 7, 500⟩ = .ok none := C65_foreign _ _ _ (by decide) (Or.inr (Or.inl (by decide +kernel)))

/-- C65: in a document that has been opened again, after any further history, registering a symbol whose types and names can be asked for only checks: it succeeds exactly when
the symbol is known with that identification, name and type, a failure is counted, and nothing is changed. -/
theorem C65_check (E : Env) (maxSize : Nat) (h1 : 0x4000 ≤ maxSize) (h2 : maxSize < 2147483648) (g : Plug) (D : Doc) (h : Sess E maxSize g.pool D) (hg : g.check = true) (b : Bool)
    (hr : D.ready b = true) (hs : D.syms b ≠ []) (id : Int) (name : BStr) (t : XBT) (ht : t ≠ LAST) :
    (0 ≤ id ∧ (D.syms b)[id.toNat]? = some ⟨name, t⟩ ∧ g.registerId b id name t = .ok (g, true)) ∨
    (¬ (0 ≤ id ∧ (D.syms b)[id.toNat]? = some ⟨name, t⟩) ∧ g.registerId b id name t = .ok ({ g with failures := g.failures + 1 }, false)) := by
  obtain ⟨els, V, fl, k⟩ := sess_keeps h1 h2 h
  have hi := k.rdy b hr hs
  have hm := (k.tabs b).max
  unfold Plug.registerId
  rw [if_neg ht, if_pos hg]
  unfold Plug.checkId
  by_cases hid : id < 0 ∨ (D.syms b).length ≤ id
  · rw [if_pos (by omega)]
    refine Or.inr ⟨?_, rfl⟩
    rintro ⟨c1, c2⟩
    rw [List.getElem?_eq_none (by omega)] at c2
    simp at c2
  · obtain ⟨i, rfl⟩ : ∃ i : Nat, id = i := ⟨id.toNat, by omega⟩
    have hlt : i < (D.syms b).length := by omega
    rw [if_neg (by omega), symName_ok k.sees.ok k.sees.small (k.tabs b) hi hlt, Out.ok_bind, symType_ok k.sees.ok k.sees.small (k.tabs b) hi hlt, Out.ok_bind, if_neg (by simp)]
    rw [Int.toNat_natCast, List.getElem?_eq_getElem hlt]
    by_cases hc : (D.syms b)[i] = ⟨name, t⟩
    · left
      refine ⟨by omega, by rw [hc], ?_⟩
      rw [if_pos (by rw [hc]; exact ⟨rfl, rfl⟩)]; rfl
    · right
      refine ⟨fun hh => hc (by simpa using hh.2), ?_⟩
      rw [if_neg]
      · rfl
      · rintro ⟨c1, c2⟩
        simp only [Option.some.injEq] at c1 c2
        apply hc
        rw [← c1, ← c2]

/-- C65: in a document that has been opened again and has tags and attributes whose types and names can be asked for, `allRegistered` tells whether all symbols registered since have been
known (or fails because the file cannot grow). -/
theorem C65_checked (E : Env) (maxSize : Nat) (h1 : 0x4000 ≤ maxSize) (h2 : maxSize < 2147483648) (g : Plug) (D : Doc) (h : Sess E maxSize g.pool D) (hg : g.check = true)
    (hr : ∀ b, D.ready b = true ∧ D.syms b ≠ []) (g' : Plug) (r : Bool) (ho : g.allRegistered E = .ok (g', r)) :
    Sess E maxSize g'.pool D ∧ (r = true → g.failures = 0) ∧ (g.failures = 0 → r = true ∨ g' = g) := by
  obtain ⟨els, V, fl, k⟩ := sess_keeps h1 h2 h
  unfold Plug.allRegistered at ho
  obtain ⟨⟨Q, x⟩, hq, ho⟩ := Out.bind_eq_ok ho
  have hs := Sess.space h hq
  obtain ⟨-, -, -, -, -, s6, s7, -, -, s10⟩ := makeSpace_spec k.sees.ok hq
  have i1 := k.rdy true (hr true).1 (hr true).2
  have i2 := k.rdy false (hr false).1 (hr false).2
  cases x with
  | false =>
    rw [if_pos rfl] at ho
    cases ho
    rw [s10 rfl] at hs ⊢
    exact ⟨hs, by simp, fun _ => Or.inr rfl⟩
  | true =>
    rw [if_neg (by simp), if_pos ⟨hg, by rw [s6]; exact i1, by rw [s7]; exact i2⟩] at ho
    cases ho
    exact ⟨hs, by simp, fun h0 => Or.inl (by simpa using h0)⟩

example : ∃ g : Plug, Sess demoEnv 0x8000 g.pool deskDoc ∧ g.check = true ∧ (∀ b, deskDoc.ready b = true ∧ deskDoc.syms b ≠ []) ∧ g.registerId true 0 (b8 "i") INT32 = .ok (g, true) ∧
    g.registerId true 0 (b8 "j") INT32 = .ok ({ g with failures := g.failures + 1 }, false) := by
  obtain ⟨g, -, b, c, -⟩ := C65_reopen demoEnv 0x8000 (by decide) (by decide) _ _ desk_doc 0
  refine ⟨g, b, c, by decide, ?_, ?_⟩
  · rcases C65_check demoEnv 0x8000 (by decide) (by decide) g deskDoc b c true (by decide) (by decide) 0 (b8 "i") INT32 (by decide) with h | h
    · exact h.2.2
    · exact absurd (by decide) h.1
  · rcases C65_check demoEnv 0x8000 (by decide) (by decide) g deskDoc b c true (by decide) (by decide) 0 (b8 "j") INT32 (by decide) with h | h
    · exact absurd h.2.1 (by decide)
    · exact h.2

/-- the document of an open file, for examples -/
def plugOf : Out (Option Plug) → Plug
  | .ok (some g) => g
  | _ => ⟨Pool.empty 0, false, 0⟩

def plugOfB : Out (Plug × Bool) → Plug
  | .ok (g, _) => g
  | _ => ⟨Pool.empty 0, false, 0⟩

/-- for examples: the call succeeds with the result `b`, and `p` holds of the document afterwards -/
def thenB (r : Out (Plug × Bool)) (b : Bool) (p : Plug → Bool) : Bool := match r with | .ok (g, c) => c == b && p g | _ => false

theorem thenB_ok {r : Out (Plug × Bool)} {b : Bool} {p : Plug → Bool} (h : thenB r b p = true) : ∃ g, r = .ok (g, b) ∧ p g = true := by
  match r, h with
  | .ok (g, c), h =>
    simp only [thenB, Bool.and_eq_true, beq_iff_eq] at h
    obtain ⟨rfl, h'⟩ := h
    exact ⟨g, rfl, h'⟩

theorem plugOf_eq {r : Out (Option Plug)} (h : (match r with | .ok (some _) => true | _ => false) = true) : r = .ok (some (plugOf r)) := by
  match r, h with
  | .ok (some _), _ => rfl

theorem plugOfB_eq {r : Out (Plug × Bool)} {b : Bool} (h : (match r with | .ok (_, c) => c == b | _ => false) = true) : r = .ok (plugOfB r, b) := by
  match r, h with
  | .ok (_, c), h => simp only [beq_iff_eq] at h; subst h; rfl

/-- a document with one tag, before and after `allRegistered` -/
def lone1 : Pool := poolOfReg ((Pool.empty 0x8000).register true (b8 "a") INT32)
def lone2 : Pool := poolOfB (lone1.allRegistered demoEnv)

theorem lone_sess : (∃ D, Sess demoEnv 0x8000 lone1 D ∧ D.syms true = [⟨b8 "a", INT32⟩]) ∧ ∃ D, Sess demoEnv 0x8000 lone2 D ∧ D.syms true = [⟨b8 "a", INT32⟩] ∧ D.ready true = true := by
  have r1 : (Pool.empty 0x8000).register true (b8 "a") INT32 = .ok (lone1, 0) := poolOfReg_eq (by decide +kernel)
  have r2 : lone1.allRegistered demoEnv = .ok (lone2, true) := poolOfB_eq (by decide +kernel)
  have s1 := Sess.registered (E := demoEnv) (maxSize := 0x8000) Sess.start (by decide) (by decide) (Or.inl (by decide)) r1 (by decide)
  exact ⟨⟨_, s1, by decide⟩, ⟨_, Sess.allRegistered s1 r2, by decide, by decide⟩⟩

/-- C65 is false of the size: a document is mapped for the size in its file, not for the size asked for, also when it is created anew. -/
theorem C65_size_false : ∃ P D g g', Sess demoEnv 0x8000 P D ∧ openFile demoEnv false 0x10000 P.file = .ok (some g) ∧ g.pool.mmapSize = 0x8000 ∧
    openFile demoEnv true 0x10000 P.file = .ok (some g') ∧ g'.pool.mmapSize = 0x8000 :=
  ⟨Pool.empty 0x8000, Doc.empty, _, _, .start, plugOf_eq (by decide +kernel), by decide +kernel, plugOf_eq (by decide +kernel), by decide +kernel⟩

/-- C65 is false of a file that is not left behind by a history: a file of the right identification and sizes may have an offset in its header that points
outside of the file, and it is read there. -/
theorem C65_trusted_false : openFile demoEnv false 0x8000 { Pool.empty 0x8000 with tags := ⟨0, 92, 0x3fffffff, false⟩ }.file = .ub := by
  have h : (match openFile demoEnv false 0x8000 { Pool.empty 0x8000 with tags := ⟨0, 92, 0x3fffffff, false⟩ }.file with | .ub => true | _ => false) = true := by decide +kernel
  match he : openFile demoEnv false 0x8000 { Pool.empty 0x8000 with tags := ⟨0, 92, 0x3fffffff, false⟩ }.file with
  | .ub => rfl
  | .ok _ => rw [he] at h; cases h
  | .fail => rw [he] at h; cases h

/-- C65 is false of a document closed before `allRegistered`: a symbol that is known is not recognized. -/
theorem C65_unready_false : (∃ D, Sess demoEnv 0x8000 lone1 D ∧ D.syms true = [⟨b8 "a", INT32⟩]) ∧
    ∃ g g', openFile demoEnv false 0 lone1.file = .ok (some g) ∧ g.registerId true 0 (b8 "a") INT32 = .ok (g', false) :=
  ⟨lone_sess.1, _, _, plugOf_eq (by decide +kernel), plugOfB_eq (by decide +kernel)⟩

/-- C65 is false of a document without attributes: a symbol that is not known has been refused, but `allRegistered` reports success. -/
theorem C65_noattrs_false : (∃ D, Sess demoEnv 0x8000 lone2 D ∧ D.syms true = [⟨b8 "a", INT32⟩] ∧ D.ready true = true) ∧
    ∃ g g' g'', openFile demoEnv false 0 lone2.file = .ok (some g) ∧ g.registerId true 0 (b8 "b") INT32 = .ok (g', false) ∧ g'.allRegistered demoEnv = .ok (g'', true) := by
  have d : (match openFile demoEnv false 0 lone2.file with | .ok (some g) => thenB (g.registerId true 0 (b8 "b") INT32) false fun g => thenB (g.allRegistered demoEnv) true fun _ => true | _ => false) = true := by
    decide +kernel
  match ho : openFile demoEnv false 0 lone2.file with
  | .ok (some g) =>
    rw [ho] at d
    obtain ⟨g', h1, d⟩ := thenB_ok d
    obtain ⟨g'', h2, -⟩ := thenB_ok d
    exact ⟨lone_sess.2, g, g', g'', rfl, h1, h2⟩
  | .ok none => rw [ho] at d; cases d
  | .fail => rw [ho] at d; cases d
  | .ub => rw [ho] at d; cases d

/-! ### C66 -/

/-- calls of `registerTag` and `registerAttr` with identifications, one after the other, and their results -/
def registerIds (g : Plug) : List (Bool × Int × Sym) → Out (Plug × List Bool)
  | [] => .ok (g, [])
  | (b, id, s) :: l => (g.registerId b id s.name s.type).bind fun r => (registerIds r.1 l).bind fun q => .ok (q.1, r.2 :: q.2)

/-- C66 is false, always: in a document just made, no symbol can be registered with an identification, whatever has been tried before. -/
theorem C66_fresh_false (n : Nat) (m : Mem) (calls : List (Bool × Int × Sym)) :
    registerIds ⟨{ Pool.empty n with mem := m }, false, 0⟩ calls = .ok (⟨{ Pool.empty n with mem := m }, false, 0⟩, calls.map fun _ => false) := by
  induction calls with
  | nil => rfl
  | cons c l ih =>
    obtain ⟨b, id, s⟩ := c
    have h : Plug.registerId ⟨{ Pool.empty n with mem := m }, false, 0⟩ b id s.name s.type = .ok (⟨{ Pool.empty n with mem := m }, false, 0⟩, false) := by
      unfold Plug.registerId
      split
      · rfl
      · cases b <;> rfl
    unfold registerIds
    rw [h]
    show Out.bind (registerIds _ l) _ = _
    rw [ih]
    rfl

/-- C66: registering a tag with an identification never succeeds, in any document that is not opened for checking, although (C66_next_partial) the tag is registered. -/
theorem C66_tag_false (g g' : Plug) (hg : g.check = false) (id : Int) (name : BStr) (t : XBT) (r : Bool) (h : g.registerId true id name t = .ok (g', r)) : r = false := by
  unfold Plug.registerId at h
  split at h
  · cases h; rfl
  · rw [if_neg (by rw [hg]; simp)] at h
    obtain ⟨⟨Q, x⟩, h1, h⟩ := Out.bind_eq_ok h
    split at h
    · cases h; rfl
    · obtain ⟨⟨Q2, y⟩, h2, h⟩ := Out.bind_eq_ok h
      cases h
      exact addAt_tag h2

/-- C66, partial: in a document with symbols, a new symbol registered with the next identification is the same as a symbol registered by name: the document is the same afterwards. The result
tells so for attributes only. What is missing: the first symbol (C66_fresh_false), the result for tags (C66_tag_false), other identifications (C66_gap_false) and known names
(C66_twice_false). -/
theorem C66_next_partial (E : Env) (maxSize : Nat) (h1 : 0x4000 ≤ maxSize) (h2 : maxSize < 2147483648) (g : Plug) (hg : g.check = false) (D : Doc) (h : Sess E maxSize g.pool D) (b : Bool)
    (hs : D.syms b ≠ []) (hl : (D.syms b).length < 128) (name : BStr) (hn : name ≠ []) (hz : ∀ x ∈ name, x ≠ 0) (hnew : ¬ Known (D.syms b) name) (t : XBT) (ht : t ≠ LAST) (Q : Pool) (i : Int)
    (ho : g.pool.register b name t = .ok (Q, i)) (hi : 0 ≤ i) :
    g.registerId b (D.syms b).length name t = .ok ({ g with pool := Q }, !b) ∧ ∃ D', Sess E maxSize Q D' ∧ D'.syms b = D.syms b ++ [⟨name, t⟩] ∧ D'.syms (!b) = D.syms (!b) ∧ D'.forest = D.forest := by
  obtain ⟨els, V, fl, k⟩ := sess_keeps h1 h2 h
  have hnew' : ∀ s ∈ D.syms b, s.name ≠ name := fun s hs hc => hnew ⟨s, hs, hc⟩
  obtain ⟨e, r⟩ := registerId_next hg k.sees.ok k.sees.small (k.tabs b) hs ⟨hn, hz⟩ hnew' ht ho hi
  refine ⟨by rw [← e]; exact r, _, Sess.registered h hn hz (Or.inl hl) ho hi, ?_, ?_, rfl⟩
  · show (if b = b then _ else _) = _
    rw [if_pos rfl, registered_new hnew']
  · show (if (!b) = b then _ else _) = _
    rw [if_neg (by cases b <;> simp)]

example : ∃ D Q i, Sess demoEnv 0x8000 lone1 D ∧ D.syms true = [⟨b8 "a", INT32⟩] ∧ lone1.register true (b8 "b") STRING = .ok (Q, i) ∧ i = 1 ∧
    Plug.registerId ⟨lone1, false, 0⟩ true 1 (b8 "b") STRING = .ok (⟨Q, false, 0⟩, false) := by
  obtain ⟨⟨D, h, hs⟩, -⟩ := lone_sess
  have r : lone1.register true (b8 "b") STRING = .ok (poolOfReg (lone1.register true (b8 "b") STRING), 1) := poolOfReg_eq (by decide +kernel)
  have := C66_next_partial demoEnv 0x8000 (by decide) (by decide) ⟨lone1, false, 0⟩ rfl D h true (by rw [hs]; decide) (by rw [hs]; decide) (b8 "b") (by decide) (by decide)
    (by rw [hs]; rintro ⟨s, h1, h2⟩; simp at h1; subst h1; revert h2; decide) STRING (by decide) _ _ r (by decide)
  rw [hs] at this
  exact ⟨D, _, _, h, hs, r, rfl, this.1⟩

/-- a document with one tag and one attribute -/
def duo : Pool := poolOfReg (lone1.register false (b8 "n") INT32)

theorem duo_sess : ∃ D, Sess demoEnv 0x8000 duo D ∧ D.syms false = [⟨b8 "n", INT32⟩] := by
  have r1 : (Pool.empty 0x8000).register true (b8 "a") INT32 = .ok (lone1, 0) := poolOfReg_eq (by decide +kernel)
  have r2 : lone1.register false (b8 "n") INT32 = .ok (duo, 0) := poolOfReg_eq (by decide +kernel)
  have s1 := Sess.registered (E := demoEnv) (maxSize := 0x8000) Sess.start (by decide) (by decide) (Or.inl (by decide)) r1 (by decide)
  exact ⟨_, Sess.registered s1 (by decide) (by decide) (Or.inl (by decide)) r2 (by decide), by decide⟩

/-- C66 is false of an identification that is not the next one: the attribute is reported as registered, but it is not known after `allRegistered`, which reports success. -/
theorem C66_gap_false : (∃ D, Sess demoEnv 0x8000 duo D ∧ D.syms false = [⟨b8 "n", INT32⟩]) ∧ ∃ g g', Plug.registerId ⟨duo, false, 0⟩ false 2 (b8 "q") INT32 = .ok (g, true) ∧
    g.allRegistered demoEnv = .ok (g', true) ∧ g'.pool.symName false 2 = .ok none ∧ g'.pool.symName false 0 = .ok (some (b8 "n")) := by
  have d : thenB (Plug.registerId ⟨duo, false, 0⟩ false 2 (b8 "q") INT32) true (fun g => thenB (g.allRegistered demoEnv) true fun g => decide (g.pool.symName false 2 = .ok none) && decide (g.pool.symName false 0 = .ok (some (b8 "n")))) = true := by decide +kernel
  obtain ⟨g, h1, d⟩ := thenB_ok d
  obtain ⟨g', h2, d⟩ := thenB_ok d
  simp only [Bool.and_eq_true, decide_eq_true_eq] at d
  exact ⟨duo_sess, g, g', h1, h2, d⟩

/-- C66 is false of a name that is known: it is registered a second time, with another identification. -/
theorem C66_twice_false : (∃ D, Sess demoEnv 0x8000 duo D ∧ D.syms false = [⟨b8 "n", INT32⟩]) ∧ ∃ g g', Plug.registerId ⟨duo, false, 0⟩ false 1 (b8 "n") STRING = .ok (g, true) ∧
    g.allRegistered demoEnv = .ok (g', true) ∧ g'.pool.symName false 0 = .ok (some (b8 "n")) ∧ g'.pool.symName false 1 = .ok (some (b8 "n")) := by
  have d : thenB (Plug.registerId ⟨duo, false, 0⟩ false 1 (b8 "n") STRING) true (fun g => thenB (g.allRegistered demoEnv) true fun g => decide (g.pool.symName false 0 = .ok (some (b8 "n"))) && decide (g.pool.symName false 1 = .ok (some (b8 "n")))) = true := by decide +kernel
  obtain ⟨g, h1, d⟩ := thenB_ok d
  obtain ⟨g', h2, d⟩ := thenB_ok d
  simp only [Bool.and_eq_true, decide_eq_true_eq] at d
  exact ⟨duo_sess, g, g', h1, h2, d⟩

/-! ### C67 -/

/-- C67: changing the type of a symbol succeeds exactly when the symbol is known and all values of its type are values of the new type (`convertable`); then the symbol has the new type, and nothing
else is changed: names, other symbols, elements, values. Otherwise nothing is changed. -/
theorem C67_alter (E : Env) (maxSize : Nat) (h1 : 0x4000 ≤ maxSize) (h2 : maxSize < 2147483648) (P : Pool) (D : Doc) (h : Sess E maxSize P D) (b : Bool) (id : Int) (t : XBT) :
    (∃ s, 0 ≤ id ∧ (D.syms b)[id.toNat]? = some s ∧ t ≠ LAST ∧ convertable s.type t = .yes ∧ ∃ Q, P.alter b id t = .ok (Q, true) ∧
      Sess E maxSize Q { D with syms := fun c => if c = b then (D.syms b).set id.toNat ⟨s.name, t⟩ else D.syms c }) ∨
    ((¬ ∃ s, 0 ≤ id ∧ (D.syms b)[id.toNat]? = some s ∧ t ≠ LAST ∧ convertable s.type t = .yes) ∧ P.alter b id t = .ok (P, false)) := by
  obtain ⟨els, V, fl, k⟩ := sess_keeps h1 h2 h
  have ht := k.tabs b
  by_cases hid : id < 0 ∨ (D.syms b).length ≤ id
  · refine Or.inr ⟨?_, alter_out ht hid t⟩
    rintro ⟨s, a1, a2, -⟩
    rw [List.getElem?_eq_none (by omega)] at a2
    cases a2
  · obtain ⟨i, rfl⟩ : ∃ i : Nat, id = i := ⟨id.toNat, by omega⟩
    have hlt : i < (D.syms b).length := by omega
    have he := alter_eq k.sees.ok k.sees.small ht hlt t
    rw [Int.toNat_natCast, List.getElem?_eq_getElem hlt]
    by_cases hc : t = LAST ∨ convertable (D.syms b)[i].type t ≠ .yes
    · rw [if_pos hc] at he
      refine Or.inr ⟨?_, he⟩
      rintro ⟨s, -, a2, a3, a4⟩
      cases a2
      rcases hc with hc | hc
      · exact a3 hc
      · exact hc a4
    · have hc' : t ≠ LAST ∧ convertable (D.syms b)[i].type t = .yes := by
        refine ⟨fun x => hc (Or.inl x), ?_⟩
        cases hx : convertable (D.syms b)[i].type t with
        | yes => rfl
        | _ => exact absurd (Or.inr (by rw [hx]; simp)) hc
      rw [if_neg hc] at he
      obtain ⟨Q, hQ⟩ : ∃ Q, P.wr (recAt (P.tab b).names (D.syms b) i + 2) [t.code] = .ok Q := by
        obtain ⟨n1, n2, n3, n4⟩ := ht.names (ht.some (by intro h0; rw [h0] at hlt; simp at hlt))
        have hsz := k.sees.ok.size
        have hlen := recLen_ge (D.syms b)[i]
        have hrec := encSyms_get (D.syms b) P.mem (P.tab b).names 0 i hlt n4
        unfold Pool.wr put
        rw [if_neg (by omega), if_pos (by simp only [List.length_singleton]; omega)]
        exact ⟨_, rfl⟩
      rw [hQ] at he
      have hs := Sess.altered h he
      refine Or.inl ⟨_, by omega, rfl, hc'.1, hc'.2, Q, he, ?_⟩
      have e : ({ D with syms := fun c => if c = b then (D.syms b).set i ⟨(D.syms b)[i].name, t⟩ else D.syms c } : Doc) = D.setSyms b (retyped (D.syms b) ((i : Int)).toNat t) (D.ready b) := by
        unfold Doc.setSyms retyped
        rw [Int.toNat_natCast]
        congr 1
        · funext c
          split
          · apply List.ext_getElem?
            intro j
            rw [List.getElem?_modify, List.getElem?_set]
            by_cases hj : i = j
            · subst hj
              rw [if_pos rfl, if_pos hlt, List.getElem?_eq_getElem hlt]
              simp
            · rw [if_neg hj]; simp [hj]
          · rfl
        · funext c
          split
          · rename_i hcb; rw [hcb]
          · rfl
      rw [e]
      exact hs

/-- the symbol `i` of `deskDoc` becomes a text; there is no symbol 2, and a text does not become a number -/
example : (∃ Q D, (desk5 INT32).alter true 0 STRING = .ok (Q, true) ∧ Sess demoEnv 0x8000 Q D ∧ D.syms true = [⟨b8 "i", STRING⟩, ⟨b8 "o", NULL⟩]) ∧
    (desk5 INT32).alter true 2 STRING = .ok (desk5 INT32, false) ∧ (desk5 INT32).alter true 1 INT32 = .ok (desk5 INT32, false) := by
  refine ⟨?_, ?_, ?_⟩
  · rcases C67_alter demoEnv 0x8000 (by decide) (by decide) _ _ desk_doc true 0 STRING with ⟨s, -, h2, -, -, Q, h5, h6⟩ | h
    · refine ⟨Q, _, h5, h6, ?_⟩
      have : s = ⟨b8 "i", INT32⟩ := by
        have e : deskDoc.syms true = [⟨b8 "i", INT32⟩, ⟨b8 "o", NULL⟩] := rfl
        rw [e] at h2
        exact (Option.some.inj h2).symm
      rw [this]; rfl
    · exact absurd ⟨⟨b8 "i", INT32⟩, by decide, rfl, by decide, by decide⟩ h.1
  · rcases C67_alter demoEnv 0x8000 (by decide) (by decide) _ _ desk_doc true 2 STRING with ⟨s, -, h2, -⟩ | h
    · cases h2
    · exact h.2
  · rcases C67_alter demoEnv 0x8000 (by decide) (by decide) _ _ desk_doc true 1 INT32 with ⟨s, -, h2, -, h4, -⟩ | h
    · have e : s = ⟨b8 "o", NULL⟩ := (Option.some.inj h2).symm
      rw [e] at h4; exact absurd h4 (by decide)
    · exact h.2

/-- C67: after the type of a symbol has been changed, asking for it gives the new type if types can be asked for. -/
theorem C67_asked (E : Env) (maxSize : Nat) (h1 : 0x4000 ≤ maxSize) (h2 : maxSize < 2147483648) (P Q : Pool) (D : Doc) (h : Sess E maxSize P D) (b : Bool) (i : Nat) (t : XBT)
    (ho : P.alter b i t = .ok (Q, true)) (hr : D.ready b = true) : Q.symType b i = .ok (some t) ∧ Q.symName b i = P.symName b i := by
  obtain ⟨els, V, fl, k⟩ := sess_keeps h1 h2 h
  have hlt : i < (D.syms b).length := by
    rcases C67_alter E maxSize h1 h2 P D h b i t with ⟨s, -, a2, -⟩ | ⟨-, a⟩
    · exact (List.getElem?_eq_some_iff.1 a2).1
    · rw [ho] at a; cases a
  have hs := Sess.altered h ho
  obtain ⟨els', V', fl', k'⟩ := sess_keeps h1 h2 hs
  have hne : D.syms b ≠ [] := by intro h0; rw [h0] at hlt; simp at hlt
  have e : (D.setSyms b (retyped (D.syms b) ((i : Int)).toNat t) (D.ready b)).syms b = retyped (D.syms b) i t := by
    show (if b = b then _ else _) = _
    rw [if_pos rfl, Int.toNat_natCast]
  have hlt' : i < (retyped (D.syms b) i t).length := by unfold retyped; simpa using hlt
  have hi' := k'.rdy b (by show (if b = b then _ else _) = _; rw [if_pos rfl]; exact hr) (by rw [e]; intro h0; rw [h0] at hlt'; simp at hlt')
  have ht' := k'.tabs b
  rw [e] at ht'
  constructor
  · rw [symType_ok k'.sees.ok k'.sees.small ht' hi' hlt']
    simp [retyped]
  · rw [symName_ok k'.sees.ok k'.sees.small ht' hi' hlt', symName_ok k.sees.ok k.sees.small (k.tabs b) (k.rdy b hr hne) hlt]
    simp [retyped]

/-- C67 is false of the elements that are there: an element keeps the type it was made with, and its value, when the type of its tag is changed; element and tag have different types then. -/
theorem C67_elements_false : ∃ P Q D o, Sess demoEnv 0x8000 P D ∧ D.forest.Elem o ∧ P.alter true 0 STRING = .ok (Q, true) ∧ Q.eId o = .ok 0 ∧ Q.symType true 0 = .ok (some STRING) ∧ Q.eType o = .ok INT32.code := by
  obtain ⟨D, h, a1, a2, a3, a4, a5, a6, a7, a8, a9, a10, a11, a12, a13, a14, a15⟩ := box_sess
  rcases C67_alter demoEnv 0x8000 (by decide) (by decide) box5 D h true 0 STRING with ⟨s, -, h2, -, -, Q, h5, h6⟩ | hx
  · obtain ⟨els, V, fl, k⟩ := sess_keeps (by decide) (by decide) h6
    have m := k.elem 164 ((k.lists.mem 164).1 a3)
    have i1 := m.eId k.sees.size.1
    have i2 := m.eType k.sees.size.1
    exact ⟨box5, Q, D, 164, h, a3, h5, by rw [i1]; exact congrArg _ a14, (C67_asked demoEnv 0x8000 (by decide) (by decide) box5 Q D h true 0 STRING h5 (a1 _)).1, by rw [i2]; exact congrArg (Out.ok ∘ code) a15⟩
  · exact absurd ⟨⟨b8 "i", INT32⟩, by decide, by rw [a7]; rfl, by decide, by decide⟩ hx.1

end BX
