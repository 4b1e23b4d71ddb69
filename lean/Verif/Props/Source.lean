import Verif.Props.Copy
import Verif.Props.Room
import Verif.Lemmas.TreeRoom
import Verif.Lemmas.SourceXb
/-
C63: going through a writable document shows its tree. C64: a writable document written to a file reads as the document.
Statements are about the histories `Sess` (Spec/Session.lean) of a writable document and its tree (Spec/Source.lean).
-/
namespace BX
open XBT Spec

/-! ### C63 -/

/-- C63: `ForAllChildrenRecursively` visits every element of a tree exactly in document order (an element before its children, children from
the first to the last) with its depth, after any history. -/
theorem C63_walk_partial (E : Env) (maxSize : Nat) (h1 : 0x4000 ≤ maxSize) (h2 : maxSize < 2147483648) (P : Pool) (D : Doc) (h : Sess E maxSize P D) (T : ETree) (hT : D.forest.Elem T.top)
    (hb : D.Below T) (deep fuel : Nat) (hf : D.steps T ≤ fuel) : P.walk fuel T.top deep = .ok (T.preorder deep) := by
  obtain ⟨els, V, fl, k⟩ := sess_keeps h1 h2 h
  exact walk_spec k.sees k.lists T fuel deep hb ((k.lists.mem _).1 hT) hf

/-- C63: `ForAllChildren` and `ForAllBinParams` visit the children and the attributes of an element in order, and `ForAllParams` the
attributes if there are any. -/
theorem C63_lists (E : Env) (maxSize : Nat) (h1 : 0x4000 ≤ maxSize) (h2 : maxSize < 2147483648) (P : Pool) (D : Doc) (h : Sess E maxSize P D) (e : Nat) (he : D.forest.Elem e) (fuel : Nat) :
    ((D.forest.at' (.kids e)).length < fuel → P.visit e 16 fuel = .ok ((D.forest.at' (.kids e)).map Int.ofNat)) ∧
    ((D.forest.at' (.attrs e)).length < fuel → P.visit e 20 fuel = .ok ((D.forest.at' (.attrs e)).map Int.ofNat)) ∧
    ((D.forest.at' (.attrs e)).length < fuel → D.forest.at' (.attrs e) ≠ [] → P.visitText e fuel = .ok ((D.forest.at' (.attrs e)).map Int.ofNat)) := by
  obtain ⟨els, V, fl, k⟩ := sess_keeps h1 h2 h
  have he' := (k.lists.mem e).1 he
  refine ⟨fun hf => visit_spec k.sees k.lists he' (Or.inl rfl) hf, fun hf => visit_spec k.sees k.lists he' (Or.inr rfl) hf, fun hf hne => ?_⟩
  have hv := visit_spec k.sees k.lists he' (Or.inr rfl) (k := 20) hf
  have hh : V 20 e = (D.forest.at' (.attrs e)).headD 0 := k.lists.head e he' 20 (Or.inr rfl)
  have hm : ∀ x ∈ D.forest.at' (.attrs e), x ∈ els := fun x hx => (k.lists.mem x).1 ⟨_, hx⟩
  have hnz : (V 20 e : Int) ≠ 0 := by
    cases hl : D.forest.at' (.attrs e) with
    | nil => exact absurd hl hne
    | cons a l =>
      rw [hl] at hh hm
      have := k.sees.lt (hm a (by simp))
      simp only [List.headD_cons] at hh
      omega
  unfold Pool.visit at hv
  unfold Pool.visitText Pool.eAttr
  rw [show ((e : Int) + ((20 : Nat) : Int)) = e + 20 from rfl, k.sees.get he' (k := 20) (by unfold IsPtr; omega) ((e : Int) + 20) rfl, Out.ok_bind, if_neg hnz] at hv
  rw [k.sees.get he' (k := 20) (by unfold IsPtr; omega) ((e : Int) + 20) rfl, Out.ok_bind, if_neg hnz]
  exact hv

/-- C63: the callback of `ForAllBinParams` gets for each attribute its name, identification, type and value. -/
theorem C63_params (E : Env) (maxSize : Nat) (h1 : 0x4000 ≤ maxSize) (h2 : maxSize < 2147483648) (P : Pool) (D : Doc) (h : Sess E maxSize P D) (hr : D.ready false = true) (hs : D.syms false ≠ [])
    (e : Nat) (he : D.forest.Elem e) (fuel : Nat) (hf : (D.forest.at' (.attrs e)).length < fuel) :
    ∃ l, P.binParams e fuel = .ok l ∧ l.length = (D.forest.at' (.attrs e)).length ∧
      ∀ (i : Nat) (hi : i < (D.forest.at' (.attrs e)).length) (hi' : i < l.length), ∃ rest,
        l[i] = (D.nameOf false (D.id (D.forest.at' (.attrs e))[i]), D.id (D.forest.at' (.attrs e))[i], D.type (D.forest.at' (.attrs e))[i], D.val (D.forest.at' (.attrs e))[i] ++ rest) := by
  obtain ⟨els, V, fl, k⟩ := sess_keeps h1 h2 h
  have he' := (k.lists.mem e).1 he
  have hm : ∀ a ∈ D.forest.at' (.attrs e), a ∈ els := fun a ha => (k.lists.mem a).1 ⟨_, ha⟩
  refine ⟨(D.forest.at' (.attrs e)).map fun a => (D.nameOf false (D.id a), D.id a, D.type a, P.dataOf a), ?_, by rw [List.length_map], ?_⟩
  · unfold Pool.binParams
    rw [visit_spec k.sees k.lists he' (Or.inr rfl) hf, Out.ok_bind]
    exact binParamsOf_spec k hr hs _ hm
  · intro i hi hi'
    obtain ⟨l, hl⟩ := dataOf_spec k (hm _ (List.getElem_mem hi))
    exact ⟨l, by rw [List.getElem_map, hl]⟩

/-- C63: `getNodeName` is the name of the symbol of an element, of a tag or of an attribute. -/
theorem C63_name (E : Env) (maxSize : Nat) (h1 : 0x4000 ≤ maxSize) (h2 : maxSize < 2147483648) (P : Pool) (D : Doc) (h : Sess E maxSize P D) (e : Nat) (he : D.forest.Elem e)
    (hr : D.ready (D.forest.tag e) = true) (hs : D.syms (D.forest.tag e) ≠ []) : P.nodeName e = .ok (D.nameOf (D.forest.tag e) (D.id e)) := by
  obtain ⟨els, V, fl, k⟩ := sess_keeps h1 h2 h
  exact nodeName_spec k ((k.lists.mem e).1 he) hr hs

/-- C63: `getNodeBinValue` gives the type of a value, a pointer to its bytes, and as the size the length of a text or the number of bytes of
a block. (No value: no pointer.) -/
theorem C63_value (E : Env) (maxSize : Nat) (h1 : 0x4000 ≤ maxSize) (h2 : maxSize < 2147483648) (P : Pool) (D : Doc) (h : Sess E maxSize P D) (e : Nat) (he : D.forest.Elem e)
    (hg : GoodVal (D.type e) (D.val e)) :
    ∃ n p, P.nodeBinValue e = .ok (D.type e, n, p) ∧ (D.type e = NULL → p = none ∧ n = 0) ∧ (D.type e ≠ NULL → ∃ rest, p = some (D.val e ++ rest)) ∧
      (∀ s : BStr, D.type e = STRING → NoNul s → (∃ l, D.val e = s ++ 0 :: l) → n = s.length) ∧ (∀ bs, D.type e = BLOB ∨ D.type e = HEX → D.val e = le32 (bs.length : Int) ++ bs → n = bs.length) := by
  obtain ⟨els, V, fl, k⟩ := sess_keeps h1 h2 h
  have he' := (k.lists.mem e).1 he
  refine ⟨_, _, nodeBinValue_spec k he' hg, ?_, ?_, ?_, ?_⟩
  · intro h0; rw [if_pos h0]; exact ⟨rfl, by rw [h0]; rfl⟩
  · intro h0; rw [if_neg h0]
    obtain ⟨l, hl⟩ := dataOf_spec k he'
    exact ⟨l, by rw [hl]⟩
  · rintro s h0 hn ⟨l, hl⟩
    rw [h0]
    simp only [valueSize, if_neg (show ¬(STRING = BLOB ∨ STRING = HEX) by decide), if_true, hl]
    have : cPrefix (s ++ 0 :: l) = s := by
      unfold cPrefix
      rw [List.takeWhile_append_of_pos (by intro a ha; simpa using hn a ha), List.takeWhile_cons, if_neg (by simp), List.append_nil]
    rw [this]
  · intro bs h0 hl
    unfold valueSize
    rw [if_pos h0, hl]
    simp; omega

/-- C63: the symbols of a document are offered with their names and types, in the order of their identifications. -/
theorem C63_symbols (E : Env) (maxSize : Nat) (h1 : 0x4000 ≤ maxSize) (h2 : maxSize < 2147483648) (P : Pool) (D : Doc) (h : Sess E maxSize P D) (b : Bool) :
    P.symbolCount b = (D.syms b).length ∧
    ∀ (i : Nat) (hi : i < (D.syms b).length), D.ready b = true → (D.syms b)[i].type ≠ UNKNOWN → P.getSymbolAt b i = .ok (some (D.syms b)[i].name, (D.syms b)[i].type) := by
  obtain ⟨els, V, fl, k⟩ := sess_keeps h1 h2 h
  refine ⟨symbolCount_spec k b, fun i hi hr hu => ?_⟩
  rw [getSymbolAt_spec k hr hi, if_neg (fun h => hu h.2)]

/-! ### C64 -/

theorem docOps_mem {l : List Sym} {op : RegOp} (h : op ∈ docOps l) : ∃ s ∈ l, op.name = s.name := by
  obtain ⟨s, hs, rfl⟩ := List.mem_map.1 h
  exact ⟨s, (List.mem_filter.1 hs).1, rfl⟩

theorem mem_docOps {l : List Sym} {s : Sym} (h : s ∈ l) (hu : s.type ≠ UNKNOWN) : ∃ op ∈ docOps l, op.name = s.name :=
  ⟨.typed s.name s.type, List.mem_map.2 ⟨s, List.mem_filter.2 ⟨h, by simpa using hu⟩, rfl⟩, rfl⟩

/-- C64: after any history, the file made from a writable document is accepted by the reader, and its root element reads as the tree of the
document: names, values, attributes and children in order.
Partial: the symbols have been registered with a type, values have the form of their type, no attribute is a text (see the `_false`
theorems), and the buffer of the writer was big enough. -/
theorem C64_document_partial (E : Env) (maxSize : Nat) (h1 : 0x4000 ≤ maxSize) (h2 : maxSize < 2147483648) (P : Pool) (D : Doc) (h : Sess E maxSize P D) (hr : ∀ b, D.ready b = true)
    (T : ETree) (hT : D.forest.Elem T.top) (hb : D.Below T) (hq : D.Every D.storedElem D.storedAttr T) (hroot : D.root = T.top) (flt : CStr → List UInt8) (hflt : ∀ s, (flt s).length = 4)
    (filename : BStr) (hfn : NoNul filename) (mtime : Int) (m0 : Mem) (fuel : Nat) (hf : D.steps T ≤ fuel) (f : Img) (hx : P.toXb flt filename mtime m0 fuel = .ok f)
    (hsz : 1024 + P.fileSize * 4 < 2147483648) (hroom : f.size < 1024 + P.fileSize * 4) (n : Nat) :
    ∃ r x, f.initialize (n + 1) = .ok r ∧ r.root = some x ∧ Reads flt (fun _ => UNKNOWN) f r (D.elemOf T) x := by
  obtain ⟨els, V, fl, k⟩ := sess_keeps h1 h2 h
  have he := (k.lists.mem _).1 hT
  unfold Pool.toXb at hx
  split at hx
  · simp at hx
  · rw [symbolCount_spec k, symbolCount_spec k, Int.toNat_natCast, Int.toNat_natCast, symbolOps_spec k (hr true) _ 0 (by omega), Out.ok_bind, symbolOps_spec k (hr false) _ 0 (by omega), Out.ok_bind,
      k.root, hroot, source_spec k hr T fuel hb he hq hf, Out.ok_bind, List.drop_zero, List.drop_zero] at hx
    have hgood : ∀ b, ∀ op ∈ docOps (D.syms b), NoNul op.name := by
      intro b op hop
      obtain ⟨s, hs, hn⟩ := docOps_mem hop
      rw [hn]; exact ((k.tabs b).good s hs).2
    have hmost : ∀ b, AtMost 32768 (docOps (D.syms b)) := by
      intro b
      apply atMost_length
      have := (k.tabs b).few
      have h3 := List.length_filter_le (fun s : Sym => decide (s.type ≠ UNKNOWN)) (D.syms b)
      unfold docOps
      rw [List.length_map]; omega
    obtain ⟨r, x, pt, g1, g2, g3, -⟩ := makeXbWith_facts flt hflt _ _ filename hfn mtime P.fileSize hsz m0 _ f hx hroom (hgood true) (hgood false) (hmost true) (hmost false)
      (srcElem_names (fun s hs hu => Or.inr (mem_docOps hs hu)) (Or.inl rfl) (fun s hs hu => mem_docOps hs hu) T hq) (fun pt => srcElem_ok k pt T hb he hq)
    exact ⟨r, x, g1 n, g2, reads_src k T x hb he hq g3⟩

/-- C64: after any history, a writable document is written to a file whatever its size: the buffer of the creator, `1024` and four times the
size of the document, is big enough for all elements and names, and the file reads as the document. The file is at most about twice as big.
Partial: as `C64_document_partial` without its assumptions on the success and on the buffer; besides, an element does not have more than 32767
attributes, and the four bytes behind a digest, which are copied with it, are in the document. -/
theorem C64_total_partial (E : Env) (maxSize : Nat) (h1 : 0x4000 ≤ maxSize) (h2 : maxSize < 2147483648) (P : Pool) (D : Doc) (h : Sess E maxSize P D) (hr : ∀ b, D.ready b = true)
    (T : ETree) (hT : D.forest.Elem T.top) (hb : D.Below T) (hq : D.Every D.storedElem D.storedAttr T) (hs : D.Small P.fileSize T) (hroot : D.root = T.top) (flt : CStr → List UInt8)
    (hflt : ∀ s, (flt s).length = 4) (filename : BStr) (hfn : NoNul filename) (hfl : filename.length ≤ 800 + 2 * P.fileSize) (mtime : Int) (m0 : Mem) (fuel : Nat) (hf : D.steps T ≤ fuel)
    (hsz : 1024 + P.fileSize * 4 < 2147483648) :
    ∃ f, P.toXb flt filename mtime m0 fuel = .ok f ∧ f.size ≤ 193 + filename.length + 2 * P.fileSize ∧
      ∀ n, ∃ r x, f.initialize (n + 1) = .ok r ∧ r.root = some x ∧ Reads flt (fun _ => UNKNOWN) f r (D.elemOf T) x := by
  obtain ⟨els, V, fl, k⟩ := sess_keeps h1 h2 h
  have he := (k.lists.mem _).1 hT
  obtain ⟨f, g1, g2, g3⟩ := made_total k T hb he hq hs flt hflt filename hfl (by omega) mtime m0
  have hx : P.toXb flt filename mtime m0 fuel = .ok f := by
    unfold Pool.toXb
    have hsy : D.syms true ≠ [] := by
      cases T with
      | node e ks => unfold Doc.Every at hq; exact stored_syms hq.1.2.1
    have hpos : 0 < (D.syms true).length := List.length_pos_iff.2 hsy
    have hlo := (k.sees.range _ he).1
    unfold poolHeader at hlo
    rw [if_neg (by rw [symbolCount_spec k, k.root, hroot]; omega), symbolCount_spec k, symbolCount_spec k, Int.toNat_natCast, Int.toNat_natCast, symbolOps_spec k (hr true) _ 0 (by omega), Out.ok_bind,
      symbolOps_spec k (hr false) _ 0 (by omega), Out.ok_bind, k.root, hroot, source_spec k hr T fuel hb he hq hf, Out.ok_bind, List.drop_zero, List.drop_zero]
    exact g1
  exact ⟨f, hx, g3, fun n => C64_document_partial E maxSize h1 h2 P D h hr T hT hb hq hroot flt hflt filename hfn mtime m0 fuel hf f hx hsz g2 n⟩

/-! ### Where C63 is false -/

def loop1 : Pool := poolOf ((Pool.empty 0x8000).make demoEnv 0 NULL 0 (tagFlag true) (sizeField NULL 0).length [])
def loop2 : Pool := poolOf' (loop1.add 92 (some 92))

theorem loop_facts : loop2.eChild 92 = .ok 92 ∧ loop2.at' 92 = .ok 92 ∧ loop2.eNext 92 = .ok 92 ∧ loop2.visitText 92 5 = .ub := by decide +kernel

theorem loop_walk : ∀ n deep, loop2.walk n 92 deep = .ub ∧ loop2.walkLoop n 92 92 deep = .ub
  | 0, deep => by unfold Pool.walk Pool.walkLoop; exact ⟨rfl, rfl⟩
  | n+1, deep => by
    have h1 := (loop_walk n (deep + 1)).2
    have h2 := (loop_walk n deep).1
    obtain ⟨a, b, -⟩ := loop_facts
    constructor
    · unfold Pool.walk
      rw [a, Out.ok_bind, if_neg (by decide), b, Out.ok_bind, h1]; rfl
    · unfold Pool.walkLoop
      rw [h2]; rfl

/-- C63 is false in general: `add` accepts an element as its own child, and going through the document then never ends. -/
theorem C63_cycle_false : (∃ D, Sess demoEnv 0x8000 loop2 D ∧ D.forest.at' (.kids 92) = [92]) ∧ ∀ fuel, loop2.walk fuel 92 0 = .ub := by
  refine ⟨?_, fun n => (loop_walk n 0).1⟩
  have r1 : (Pool.empty 0x8000).make demoEnv 0 NULL 0 (tagFlag true) (sizeField NULL 0).length [] = .ok (loop1, some 92) := poolOf_eq (by decide +kernel)
  have r2 : (ListOp.add 92 92).run loop1 = .ok loop2 := poolOf'_eq (by decide +kernel)
  have s1 := Sess.made (k := 0) (Sess.start (E := demoEnv) (maxSize := 0x8000)) ⟨by decide, by decide⟩ (by decide) r1 rfl
  have s2 := Sess.step s1 (Step.add (k := 0) ⟨.loose 0, by decide⟩ (by decide)) r2
  exact ⟨_, s2, by decide⟩

/-- C63 is false in general: `ForAllParams` of an element without attributes goes through an element at offset 0. -/
theorem C63_noattrs_false : loop2.visitText 92 5 = .ub := loop_facts.2.2.2

/-! ### A document of two elements and an attribute: `<o><i q="7">5</i></o>` -/

def box1 : Pool := poolOf ((desk6 INT32).make demoEnv 0 INT32 0 (tagFlag true) (sizeField INT32 0).length (le32 5))
def box2 : Pool := poolOf (box1.make demoEnv 1 INT32 0 (tagFlag false) (sizeField INT32 0).length (le32 7))
def box3 : Pool := poolOf' (box2.add 140 (some 164))
def box4 : Pool := poolOf' (box3.add 164 (some 192))
def box5 : Pool := poolOf' (box4.setRoot (some 140))

def boxTree : ETree := .node 140 [.node 164 []]

/-- the document with its symbols and no elements -/
def deskDoc : Doc := { Doc.empty with syms := fun b => if b then [⟨b8 "i", INT32⟩, ⟨b8 "o", NULL⟩] else [⟨b8 "n", INT32⟩, ⟨b8 "q", INT32⟩], ready := fun _ => true }

theorem desk_doc : Sess demoEnv 0x8000 (desk5 INT32) deskDoc := by
  have r1 : (Pool.empty 0x8000).register true (b8 "i") INT32 = .ok (desk1, 0) := poolOfReg_eq (by decide +kernel)
  have r2 : desk1.register true (b8 "o") NULL = .ok (desk2, 1) := poolOfReg_eq (by decide +kernel)
  have r3 : desk2.register false (b8 "n") INT32 = .ok (desk3 INT32, 0) := poolOfReg_eq (by decide +kernel)
  have r4 : (desk3 INT32).register false (b8 "q") INT32 = .ok (desk4 INT32, 1) := poolOfReg_eq (by decide +kernel)
  have r5 : (desk4 INT32).allRegistered demoEnv = .ok (desk5 INT32, true) := poolOfB_eq (by decide +kernel)
  have s1 := Sess.registered (E := demoEnv) (maxSize := 0x8000) Sess.start (by decide) (by decide) (Or.inl (by decide)) r1 (by decide)
  have s2 := Sess.registered s1 (by decide) (by decide) (Or.inl (by decide)) r2 (by decide)
  have s3 := Sess.registered s2 (by decide) (by decide) (Or.inl (by decide)) r3 (by decide)
  have s4 := Sess.registered s3 (by decide) (by decide) (Or.inl (by decide)) r4 (by decide)
  have s5 := Sess.allRegistered s4 r5
  have : ∀ D, Sess demoEnv 0x8000 (desk5 INT32) D → D = deskDoc → Sess demoEnv 0x8000 (desk5 INT32) deskDoc := fun D h e => e ▸ h
  refine this _ s5 ?_
  unfold deskDoc
  refine congr (congrArg (Doc.mk Doc.empty.forest Doc.empty.id Doc.empty.type Doc.empty.val Doc.empty.root) (funext fun b => ?_)) (funext fun b => ?_) <;> cases b <;> decide

def madeAt (r : Out (Pool × Option Nat)) (o : Nat) : Bool := match r with | .ok (_, some x) => x == o | _ => false
def wasOk (r : Out Pool) : Bool := match r with | .ok _ => true | _ => false

theorem madeAt_eq {r : Out (Pool × Option Nat)} {o : Nat} (h : madeAt r o = true) : r = .ok (poolOf r, some o) := poolOf_eq h
theorem wasOk_eq {r : Out Pool} (h : wasOk r = true) : r = .ok (poolOf' r) := poolOf'_eq h

theorem box_runs : madeAt ((desk5 INT32).make demoEnv 1 NULL 0 (tagFlag true) (sizeField NULL 0).length []) 140 = true ∧
    madeAt ((desk6 INT32).make demoEnv 0 INT32 0 (tagFlag true) (sizeField INT32 0).length (le32 5)) 164 = true ∧
    madeAt (box1.make demoEnv 1 INT32 0 (tagFlag false) (sizeField INT32 0).length (le32 7)) 192 = true ∧ wasOk ((ListOp.add 140 164).run box2) = true ∧ wasOk ((ListOp.add 164 192).run box3) = true ∧
    wasOk (box4.setRoot (some 140)) = true := by decide +kernel

set_option maxHeartbeats 4000000 in
theorem box_sess : ∃ D, Sess demoEnv 0x8000 box5 D ∧ (∀ b, D.ready b = true) ∧ D.forest.Elem 140 ∧ D.forest.Elem 164 ∧ D.Below boxTree ∧ D.Every D.storedElem D.storedAttr boxTree ∧ D.root = 140 ∧
    D.syms true = [⟨b8 "i", INT32⟩, ⟨b8 "o", NULL⟩] ∧ D.syms false = [⟨b8 "n", INT32⟩, ⟨b8 "q", INT32⟩] ∧ D.forest.at' (.attrs 164) = [192] ∧ D.forest.at' (.attrs 140) = [] ∧
    D.elemOf boxTree = .mk (b8 "o") (.bin NULL []) [] [.mk (b8 "i") (.bin INT32 (le32 5)) [(b8 "q", .bin INT32 (le32 7))] []] ∧ GoodVal (D.type 164) (D.val 164) ∧ D.forest.tag 164 = true ∧ D.id 164 = 0 ∧ D.type 164 = INT32 := by
  obtain ⟨r6, r7, r8, r9, r10, r11⟩ := box_runs
  replace r6 : (desk5 INT32).make demoEnv 1 NULL 0 (tagFlag true) (sizeField NULL 0).length [] = .ok (desk6 INT32, some 140) := madeAt_eq r6
  replace r7 : (desk6 INT32).make demoEnv 0 INT32 0 (tagFlag true) (sizeField INT32 0).length (le32 5) = .ok (box1, some 164) := madeAt_eq r7
  replace r8 : box1.make demoEnv 1 INT32 0 (tagFlag false) (sizeField INT32 0).length (le32 7) = .ok (box2, some 192) := madeAt_eq r8
  replace r9 : (ListOp.add 140 164).run box2 = .ok box3 := wasOk_eq r9
  replace r10 : (ListOp.add 164 192).run box3 = .ok box4 := wasOk_eq r10
  replace r11 : box4.setRoot (some 140) = .ok box5 := wasOk_eq r11
  have s6 := Sess.made (k := 0) desk_doc ⟨by decide, by decide⟩ (by decide) r6 rfl
  have s7 := Sess.made (k := 1) s6 ⟨by decide, by decide⟩ (by decide) r7 rfl
  have s8 := Sess.made (k := 2) s7 ⟨by decide, by decide⟩ (by decide) r8 rfl
  have s9 := Sess.step s8 (Step.add (k := 1) ⟨.loose 0, by decide⟩ (by decide)) r9
  have s10 := Sess.step s9 (Step.add (k := 2) ⟨.kids 140, by decide⟩ (by decide)) r10
  have s11 := Sess.rooted s10 (e := 140) ⟨.loose 0, by decide⟩ r11
  have g5 : GoodVal INT32 (le32 5) := rfl
  have g7 : GoodVal INT32 (le32 7) := rfl
  have g0 : GoodVal NULL [] := rfl
  refine ⟨_, s11, fun b => by cases b <;> decide, ⟨.loose 0, by decide⟩, ⟨.kids 140, by decide⟩, ⟨by decide, ⟨by decide, trivial⟩, trivial⟩,
    ⟨⟨by decide, Or.inl ⟨by decide, ⟨b8 "o", NULL⟩, by decide, by decide⟩, g0, by decide⟩, fun a ha => absurd (show a ∈ [] from ha) (by simp),
      ⟨⟨by decide, Or.inl ⟨by decide, ⟨b8 "i", INT32⟩, by decide, by decide⟩, g5, by decide⟩, fun a ha => ?_, trivial⟩, trivial⟩, by decide, by decide, by decide, by decide, by decide, rfl, g5, by decide, by decide, by decide⟩
  have : a = 192 := by simpa using (show a ∈ [192] from ha)
  subst this
  exact ⟨⟨by decide, ⟨b8 "q", INT32⟩, by decide, by decide⟩, g7, by decide, by decide⟩

/-- the hypotheses of the theorems of C63 are met -/
example : box5.walk 20 (140 : Nat) 0 = .ok [(140, 0), (164, 1)] ∧ box5.nodeName (164 : Nat) = .ok (some (b8 "i")) ∧ box5.visitText (164 : Nat) 5 = .ok [192] ∧
    (∃ n p, box5.nodeBinValue (164 : Nat) = .ok (INT32, n, p)) ∧ box5.getSymbolAt true (1 : Nat) = .ok (some (b8 "o"), NULL) := by
  obtain ⟨D, h, a1, a2, a3, a4, a5, a6, a7, a8, a9, a10, a11, a12, a13, a14, a15⟩ := box_sess
  have hs : D.steps boxTree ≤ 20 := by unfold boxTree; simp only [Doc.steps, Doc.stepsAll, a9, a10]; decide
  refine ⟨C63_walk_partial demoEnv 0x8000 (by decide) (by decide) box5 D h boxTree a2 a4 0 20 hs, ?_, ?_, ?_, ?_⟩
  · rw [C63_name demoEnv 0x8000 (by decide) (by decide) box5 D h 164 a3 (a1 _) (by rw [a13, a7]; simp), a13, a14]
    unfold Doc.nameOf; rw [a7]; rfl
  · rw [((C63_lists demoEnv 0x8000 (by decide) (by decide) box5 D h 164 a3 5).2.2 (by rw [a9]; decide) (by rw [a9]; simp)), a9]; rfl
  · obtain ⟨n, p, h1, -⟩ := C63_value demoEnv 0x8000 (by decide) (by decide) box5 D h 164 a3 a12
    exact ⟨n, p, a15 ▸ h1⟩
  · rw [((C63_symbols demoEnv 0x8000 (by decide) (by decide) box5 D h true).2 1 (by rw [a7]; decide) (a1 _) (by simp [a7]))]; simp [a7]

def fileOk (r : Out Img) (n : Nat) : Bool := match r with | .ok f => f.size == n | _ => false

theorem fileOk_ok {r : Out Img} {n : Nat} (h : fileOk r n = true) : ∃ f, r = .ok f ∧ f.size = n := by
  match r, h with
  | .ok f, h => exact ⟨f, rfl, by simpa [fileOk] using h⟩

/-- the hypotheses of `C64_document_partial` are met -/
example : ∃ f r x, box5.toXb (fun _ => [0,0,0,0]) (b8 "f") 0 (fun _ => 0) 20 = .ok f ∧ f.initialize 1 = .ok r ∧ r.root = some x ∧
    Reads (fun _ => [0,0,0,0]) (fun _ => UNKNOWN) f r (.mk (b8 "o") (.bin NULL []) [] [.mk (b8 "i") (.bin INT32 (le32 5)) [(b8 "q", .bin INT32 (le32 7))] []]) x := by
  obtain ⟨D, h, a1, a2, a3, a4, a5, a6, a7, a8, a9, a10, a11, a12, a13, a14, a15⟩ := box_sess
  have hs : D.steps boxTree ≤ 20 := by unfold boxTree; simp only [Doc.steps, Doc.stepsAll, a9, a10]; decide
  have hc : fileOk (box5.toXb (fun _ => [0,0,0,0]) (b8 "f") 0 (fun _ => 0) 20) 252 = true ∧ 252 < 1024 + box5.fileSize * 4 ∧ 1024 + box5.fileSize * 4 < 2147483648 := by decide +kernel
  obtain ⟨hz, hsz⟩ := hc
  obtain ⟨f, hf, hz⟩ := fileOk_ok hz
  obtain ⟨r, x, h1, h2, h3⟩ := C64_document_partial demoEnv 0x8000 (by decide) (by decide) box5 D h a1 boxTree a2 a4 a5 a6 (fun _ => [0,0,0,0]) (fun _ => rfl) (b8 "f") (by decide) 0 (fun _ => 0) 20 hs f hf
    hsz.2 (by rw [hz]; exact hsz.1) 0
  exact ⟨f, r, x, hf, h1, h2, a11 ▸ h3⟩

/-- the hypotheses of `C64_total_partial` are met -/
example : ∃ f, box5.toXb (fun _ => [0,0,0,0]) (b8 "f") 0 (fun _ => 0) 20 = .ok f ∧ f.size ≤ 194 + 2 * box5.fileSize ∧ ∃ r x, f.initialize 1 = .ok r ∧ r.root = some x ∧
    Reads (fun _ => [0,0,0,0]) (fun _ => UNKNOWN) f r (.mk (b8 "o") (.bin NULL []) [] [.mk (b8 "i") (.bin INT32 (le32 5)) [(b8 "q", .bin INT32 (le32 7))] []]) x := by
  obtain ⟨D, h, a1, a2, a3, a4, a5, a6, a7, a8, a9, a10, a11, a12, a13, a14, a15⟩ := box_sess
  have hs : D.steps boxTree ≤ 20 := by unfold boxTree; simp only [Doc.steps, Doc.stepsAll, a9, a10]; decide
  have hv := a11
  unfold boxTree at hv
  simp only [Doc.elemOf, Doc.elemsOf, a9, a10, List.map_cons, List.map_nil, Elem.mk.injEq, SVal.bin.injEq, List.cons.injEq, Doc.attrOf, Prod.mk.injEq] at hv
  have hsm : D.Small box5.fileSize boxTree := by
    unfold Doc.Small boxTree
    simp only [Doc.Every, Doc.EveryAll, a9, a10, hv.2.1.1, a15]
    simp [hv.2.2.2.1.2.2.1.1.2.1]
  obtain ⟨f, h1, h2, h3⟩ := C64_total_partial demoEnv 0x8000 (by decide) (by decide) box5 D h a1 boxTree a2 a4 a5 hsm a6 (fun _ => [0,0,0,0]) (fun _ => rfl) (b8 "f") (by decide) (by
      show 1 ≤ 800 + 2 * box5.fileSize
      omega) 0 (fun _ => 0) 20 hs (by decide +kernel)
  obtain ⟨r, x, g1, g2, g3⟩ := h3 0
  have e1 : (b8 "f").length = 1 := by decide
  rw [e1] at h2
  generalize box5.fileSize = n at h2 ⊢
  exact ⟨f, h1, by omega, r, x, g1, g2, a11 ▸ g3⟩

/-! ### Where C64 is false: `<o n="x" n="y" count="7"/>` -/

def mix1 : Pool := poolOf ((desk6 STRING).make demoEnv 0 STRING 2 (tagFlag false) (sizeField STRING 2).length (b8 "x" ++ [0]))
def mix2 : Pool := poolOf (mix1.make demoEnv 0 STRING 2 (tagFlag false) (sizeField STRING 2).length (b8 "y" ++ [0]))
def mix3 : Pool := poolOf (mix2.make demoEnv (-5) INT32 0 (tagFlag false) (sizeField INT32 0).length (le32 7))
def mix4 : Pool := poolOf' (mix3.add 140 (some 164))
def mix5 : Pool := poolOf' (mix4.add 140 (some 192))
def mix6 : Pool := poolOf' (mix5.add 140 (some 220))
def mix7 : Pool := poolOf' (mix6.setRoot (some 140))
def mixFile : Out Img := mix7.toXb (fun _ => [0,0,0,0]) (b8 "f") 0 (fun _ => 0) 20

/-- name and value of an attribute of the root of a file, as its reader shows them -/
def fileAttr (f : Out Img) (i : Int) : Out (BStr × Data) := do
  let f ← f
  let r ← f.initialize 5
  match r.root with
  | none => .fail
  | some x => do
    let p ← f.getParamByIndex x i
    match p with
    | none => .fail
    | some p => do
      let n ← f.pName p
      let s ← f.getSymbol r.params n
      let d ← f.pGetData x p
      return (s, d)

/-- the attributes of an element of a document with the first four bytes of their values -/
def docAttrs (P : Pool) (e : Int) : Out (List (Option BStr × List UInt8)) := do
  let l ← P.binParams e 9
  return l.map fun a => (a.1, a.2.2.2.take 4)

theorem mix_facts : docAttrs mix7 140 = .ok [(some (b8 "n"), b8 "x" ++ [0, 0, 0]), (some (b8 "n"), b8 "y" ++ [0, 0, 0]), (some (b8 "count"), le32 7)] ∧
    fileAttr mixFile 0 = .ok (b8 "n", ⟨STRING, b8 "xy" ++ [0]⟩) ∧ fileAttr mixFile 2 = .ok (b8 "NULL", ⟨INT32, le32 7⟩) := by decide +kernel

/-- C64 is false in general: the end of a text in an attribute is not written to the file. The first attribute is "x" in the document and
"xy" in the file. -/
theorem C64_text_false : (∃ l, docAttrs mix7 140 = .ok ((some (b8 "n"), b8 "x" ++ [0, 0, 0]) :: l)) ∧ fileAttr mixFile 0 = .ok (b8 "n", ⟨STRING, b8 "xy" ++ [0]⟩) :=
  ⟨⟨_, mix_facts.1⟩, mix_facts.2.1⟩

/-- C64 is false in general: an attribute with a built-in name loses it. The third attribute is `count` in the document and `NULL` in the
file. -/
theorem C64_builtin_false : (∃ a b, docAttrs mix7 140 = .ok [a, b, (some (b8 "count"), le32 7)]) ∧ fileAttr mixFile 2 = .ok (b8 "NULL", ⟨INT32, le32 7⟩) :=
  ⟨⟨_, _, mix_facts.1⟩, mix_facts.2.2⟩

end BX
