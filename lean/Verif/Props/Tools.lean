import Verif.Props.Stream
import Verif.Props.Open
import Verif.Model.Tools
import Verif.Spec.Tools
/-
C82: the command line tools 2xb, 2xbw and xb2xml. Statements are about the histories `Sess` (Spec/Session.lean) of a document whose file is printed, and Spec/Tools.lean.
-/
namespace BX
open XBT Spec

/-! ### lemmas -/

theorem testRow_eq (ok : Bool) (ns : List Nat) : testRow ok ns = true ↔ ok = true ∧ ∀ n ∈ ns, n ≠ 0 := by
  induction ns generalizing ok with
  | nil => simp [testRow]
  | cons n ns ih =>
    rw [testRow, ih]
    simp
    constructor
    · rintro ⟨⟨a, b⟩, c⟩; exact ⟨b, a, c⟩
    · rintro ⟨a, b, c⟩; exact ⟨⟨b, a⟩, c⟩

theorem toolLoop_read (test : Bool) (make : CStr → Bool) (first : CStr) (args : List CStr) : ∀ a ∈ (toolLoop test make first args).read, a = first := by
  induction args with
  | nil => intro a h; cases h
  | cons b as ih =>
    unfold toolLoop
    split
    · intro a h; cases h
    · split
      · intro a h
        rcases List.mem_cons.1 h with h | h
        · exact h
        · exact ih a h
      · intro a h; simpa using h

theorem toolLoop_good (test : Bool) (make : CStr → Bool) (first : CStr) (args : List CStr) (ht : "--test".toList ∉ args) (hm : make first = true) :
    toolLoop test make first args = ⟨List.replicate args.length first, 0⟩ := by
  induction args with
  | nil => rfl
  | cons b as ih =>
    unfold toolLoop
    rw [if_neg (fun h => ht (by simp [h])), if_pos hm, ih (fun h => ht (List.mem_cons_of_mem _ h))]
    rfl

theorem printSyms_spec {P : Pool} {D : Doc} {els V fl} (k : Keeps P D els V fl) {b : Bool} (hr : D.ready b = true) (n i : Nat) (h : i + n = (D.syms b).length) :
    P.printSyms b n i = .ok (symbolLines xbt2str ((D.syms b).drop i)) := by
  induction n generalizing i with
  | zero =>
    rw [List.drop_of_length_le (by omega)]
    rfl
  | succ n ih =>
    have hi : i < (D.syms b).length := by omega
    have hne : D.syms b ≠ [] := by intro h0; rw [h0] at hi; simp at hi
    have hx := k.rdy b hr hne
    rw [List.drop_eq_getElem_cons hi]
    unfold Pool.printSyms Pool.nameOf
    rw [if_neg hx, if_neg (by omega), symName_ok k.sees.ok k.sees.small (k.tabs b) hx hi, Out.ok_bind]
    simp only
    rw [symType_ok k.sees.ok k.sees.small (k.tabs b) hx hi, Out.ok_bind]
    simp only
    rw [ih (i + 1) (by omega), Out.ok_bind]
    rw [symbolLines, symbolLines, List.map_cons, List.flatten_cons]
    simp [Out.pure_eq, -List.map_drop]

theorem afterComment_clean (l r : CStr) (h : '>' ∉ l) : afterComment (l ++ '-' :: '-' :: '>' :: r) = some r := by
  induction l with
  | nil => rfl
  | cons c l ih =>
    have h' : '>' ∉ l := fun h0 => h (by simp [h0])
    have hn : ∀ x, c :: (l ++ '-' :: '-' :: '>' :: r) ≠ '-' :: '-' :: '>' :: x := by
      intro x
      match l, h with
      | [], _ => simp
      | [d], _ => simp
      | d :: e :: l, h => intro h0; injection h0 with _ h0; injection h0 with _ h0; injection h0 with h0 _; exact h (by simp [h0])
    rw [List.cons_append, afterComment]
    · exact ih h'
    · intro x hx hx'; exact hn x (by rw [hx, hx'])

theorem xbt2str_clean (t : XBT) : '>' ∉ xbt2str t := by cases t <;> decide

theorem symbolLines_clean {l : List Sym} (h : ∀ s ∈ l, '>' ∉ toC s.name) : '>' ∉ symbolLines xbt2str l := by
  unfold symbolLines
  intro hm
  rw [List.mem_flatten] at hm
  obtain ⟨x, hx, hm⟩ := hm
  rw [List.mem_map] at hx
  obtain ⟨s, hs, rfl⟩ := hx
  have h1 := h s hs
  have h2 := xbt2str_clean s.type
  simp [h1, h2] at hm

/-! ### C82 -/

/-- C82: whatever the arguments are, `2xb` and `2xbw` read no other file than the first that is named. If it can be converted, and no argument asks for the self test, it is converted
as many times as there are arguments, and the exit code is 0. -/
theorem C82_first (test : Bool) (make : CStr → Bool) (args : List CStr) :
    (∀ a ∈ (toolMain test make args).read, some a = args.head?) ∧
    ("--test".toList ∉ args → (∀ a, args.head? = some a → make a = true) → toolMain test make args = ⟨List.replicate args.length (args.headD []), 0⟩) := by
  cases args with
  | nil => exact ⟨fun a h => (by cases h), fun _ _ => rfl⟩
  | cons b as =>
    refine ⟨fun a h => ?_, fun h1 h2 => ?_⟩
    · rw [toolLoop_read _ _ _ _ a h]; rfl
    · exact toolLoop_good _ _ _ _ h1 (h2 b rfl)

example : toolMain true (fun _ => true) ["a.xml".toList, "b.xml".toList] = ⟨["a.xml".toList, "a.xml".toList], 0⟩ := by decide +kernel

/-- C82 is false of the files behind the first: none of them is converted, and still the exit code says that all is right. -/
theorem C82_others_false (test : Bool) (make : CStr → Bool) (a b : CStr) (rest : List CStr) (hab : b ≠ a) (ht : "--test".toList ∉ a :: b :: rest) (hm : make a = true) :
    b ∉ (toolMain test make (a :: b :: rest)).read ∧ (toolMain test make (a :: b :: rest)).code = 0 := by
  obtain ⟨h1, h2⟩ := C82_first test make (a :: b :: rest)
  refine ⟨fun h => hab ?_, ?_⟩
  · simpa using h1 b h
  · rw [h2 ht (by rintro x hx; cases hx; exact hm)]

/-- C82: an error is reported by the exit code. -/
theorem C82_failed (test : Bool) (make : CStr → Bool) (a : CStr) (rest : List CStr) (ha : a ≠ "--test".toList) (hm : make a = false) : toolMain test make (a :: rest) = ⟨[a], 1⟩ := by
  unfold toolMain toolLoop
  rw [if_neg ha]
  simp [hm]

/-- C82: the self test says that it is right exactly if every one of its conversions has failed. -/
theorem C82_selftest (before after : List Nat) : selfTest before after = true ↔ ∀ n ∈ before ++ after, n ≠ 0 := by
  unfold selfTest
  rw [testRow_eq, testRow_eq]
  simp only [List.mem_append, true_and]
  constructor
  · rintro ⟨h1, h2⟩ n (h | h)
    · exact h1 n h
    · exact h2 n h
  · intro h
    exact ⟨fun n hn => h n (Or.inl hn), fun n hn => h n (Or.inr hn)⟩

/-- C82 is false of the self test: if all conversions of the test are right, the tools say that it failed. -/
theorem C82_selftest_false (before after : List Nat) (hne : before ≠ []) (h : ∀ n ∈ before ++ after, n = 0) (make : CStr → Bool) (rest : List CStr) :
    selfTest before after = false ∧ toolMain (selfTest before after) make ("--test".toList :: rest) = ⟨[], 1⟩ := by
  have h0 : selfTest before after = false := by
    cases hs : selfTest before after
    · rfl
    · exfalso
      obtain ⟨n, hn⟩ := List.exists_mem_of_ne_nil _ hne
      exact (C82_selftest before after).1 hs n (by simp [hn]) (h n (by simp [hn]))
  refine ⟨h0, ?_⟩
  rw [h0]
  unfold toolMain toolLoop
  rw [if_pos rfl]
  rfl

example : selfTest [0, 0, 0] [0] = false ∧ selfTest [1, 2, 1] [1] = true := by decide

/-- C82: the types are shown with their names, and different types with different ones. -/
theorem C82_types (t u : XBT) : typeNames[t.code.toNat]?.map (fun n => "XBT_".toList ++ n.toList) = some (xbt2str t) ∧ (xbt2str t = xbt2str u → t = u) := by
  refine ⟨by cases t <;> decide, ?_⟩
  have inv : ∀ t : XBT, XBT.all.find? (fun u => xbt2str u = xbt2str t) = some t := by intro t; cases t <;> decide
  intro h
  have h1 := inv t
  rw [h, inv u] at h1
  cases h1; rfl

/-- C82: `xb2xml` prints the texts of its arguments one after the other, with a declaration before those of compact files, and says that it is right. -/
theorem C82_files (xbw : CStr → Out (Option CStr)) (xb : CStr → Out CStr) (text : CStr → CStr) (args : List CStr)
    (h : ∀ a ∈ args, a ≠ "-v".toList → (lastDot a = some ".xbw".toList ∧ xbw a = .ok (some (text a))) ∨
      (lastDot a ≠ some ".xbw".toList ∧ ∃ t, xb a = .ok t ∧ text a = "<?xml version=\"1.0\" encoding=\"utf-8\"?>\n".toList ++ t)) (rest : List CStr) :
    xb2xmlMain xbw xb (args ++ rest) = (do
      let r ← xb2xmlMain xbw xb rest
      return (((args.filter (· ≠ "-v".toList)).map text).flatten ++ r.1, r.2)) := by
  induction args with
  | nil =>
    show xb2xmlMain xbw xb rest = _
    cases xb2xmlMain xbw xb rest <;> rfl
  | cons a as ih =>
    have ih := ih fun b hb => h b (by simp [hb])
    rw [List.cons_append, xb2xmlMain]
    by_cases hv : a = "-v".toList
    · have hf : (a :: as).filter (· ≠ "-v".toList) = as.filter (· ≠ "-v".toList) := List.filter_cons_of_neg (by simp [hv])
      rw [if_pos hv, ih, hf]
    · have hf : (a :: as).filter (· ≠ "-v".toList) = a :: as.filter (· ≠ "-v".toList) := List.filter_cons_of_pos (by simpa using hv)
      rw [if_neg hv, hf]
      rcases h a (by simp) hv with ⟨h1, h2⟩ | ⟨h1, t, h2, h3⟩
      · rw [if_pos h1, h2, Out.ok_bind]
        simp only
        rw [ih]
        cases xb2xmlMain xbw xb rest with
        | ok r => simp [Out.ok_bind, Out.pure_eq]
        | fail => rfl
        | ub => rfl
      · rw [if_neg h1, h2, Out.ok_bind, ih]
        cases xb2xmlMain xbw xb rest with
        | ok r => simp [Out.ok_bind, Out.pure_eq, h3]
        | fail => rfl
        | ub => rfl

/-- C82: when a writable document cannot be opened, `xb2xml` ends with the exit code 1, after the texts of the files before it and without looking at those behind it. -/
theorem C82_refused (xbw : CStr → Out (Option CStr)) (xb : CStr → Out CStr) (a : CStr) (rest : List CStr) (ha : lastDot a = some ".xbw".toList) (hx : xbw a = .ok none) :
    xb2xmlMain xbw xb (a :: rest) = .ok ([], 1) := by
  have hv : a ≠ "-v".toList := by rintro rfl; revert ha; decide
  rw [xb2xmlMain, if_neg hv, if_pos ha, hx]
  rfl

example : xb2xmlMain (fun a => .ok (if a = "b.xbw".toList then some ['b'] else none)) (fun _ => .ok ['a']) ["-v".toList, "b.xbw".toList, "c.xbw".toList, "a.xb".toList] = .ok (['b'], 1) := by
  refine (C82_files _ _ (fun _ => ['b']) ["-v".toList, "b.xbw".toList] ?_ ["c.xbw".toList, "a.xb".toList]).trans ?_
  · intro a ha hv
    simp only [List.mem_cons, List.not_mem_nil, or_false] at ha
    rcases ha with rfl | rfl
    · exact absurd rfl hv
    · exact Or.inl ⟨by decide, by decide⟩
  · rw [C82_refused _ _ _ _ (by decide) (by decide)]
    decide

/-- C82: for the file of any history whose tables of symbols are made, `xb2xml` prints a declaration, a comment with the names and the types of all tags and attributes in the order of their
identifications, and a text in which a reader finds exactly the tree of the document (under the conditions of C76). If no name contains `>`, a reader that skips the comment gets to that text. -/
theorem C82_listing_partial (E : Env) (maxSize : Nat) (h1 : 0x4000 ≤ maxSize) (h2 : maxSize < 2147483648) (P : Pool) (D : Doc) (h : Sess E maxSize P D) (T : ETree) (hT : D.forest.Elem T.top)
    (hb : D.Below T) (hr : D.root = T.top) (gm : Gm) (flt : List UInt8 → CStr) (hq : D.Every (D.printable (valueText gm flt) true) (D.printable (valueText gm flt) false) T) (junk : Int → CStr)
    (hj : ∀ x, (junk x).length = 4097) (hy : ∀ b, D.ready b = true) :
    Eventually fun fuel => ∃ s, xbwText E P.file gm flt junk fuel = .ok (some ("<?xml version=\"1.0\" encoding=\"utf-8\"?>\n".toList ++ symbolComment xbt2str D ++ s)) ∧
      readDoc s = some (D.toks (valueText gm flt) T) ∧ ((∀ b, ∀ y ∈ D.syms b, '>' ∉ toC y.name) → afterComment ((symbolComment xbt2str D).drop 4 ++ s) = some ('\n' :: s)) := by
  obtain ⟨els0, V0, fl0, k0⟩ := sess_keeps h1 h2 h
  have p1 := k0.sees.ok.head; have p2 := k0.sees.ok.le; have p3 := k0.sees.ok.lim; have p4 := k0.sees.ok.map; have hsm := k0.sees.small
  have p5 := k0.sees.ok.size
  have hh : poolHeader = 92 := rfl
  obtain ⟨g, ho, hg, -⟩ := C65_reopen E maxSize h1 h2 P D h (toolSize (ofU 32 (P.fileSize % 2 ^ 32))).toNat
  obtain ⟨els, V, fl, k⟩ := sess_keeps h1 h2 hg
  have hsize : ofU 32 (P.fileSize % 2 ^ 32) = (P.fileSize : Int) := by
    rw [Nat.mod_eq_of_lt (by omega)]
    unfold ofU
    rw [if_pos (by simp; omega)]
  have hts := printSyms_spec k (hy true) (g.pool.tags.maxId + 1).toNat 0 (by have := (k.tabs true).max; unfold Pool.tab at this; simp at this; omega)
  have hps := printSyms_spec k (hy false) (g.pool.params.maxId + 1).toNat 0 (by have := (k.tabs false).max; unfold Pool.tab at this; simp at this; omega)
  refine (C76_document_partial E maxSize h1 h2 g.pool D hg T hT hb hr gm flt hq junk hj).mono fun fuel ⟨s, s1, s2⟩ => ⟨s, ?_, s2, fun hc => ?_⟩
  · unfold xbwText
    simp only
    rw [show P.file.size = P.fileSize from rfl, if_neg (by rw [hsize]; omega), ho, Out.ok_bind]
    simp only
    rw [hts, Out.ok_bind, hps, Out.ok_bind, s1, Out.ok_bind]
    unfold symbolComment
    simp [List.append_assoc]
  · have e : (symbolComment xbt2str D).drop 4 ++ s = ("\nTAG NAMES:\n".toList ++ symbolLines xbt2str (D.syms true) ++ "\nATTR NAMES:\n".toList ++ symbolLines xbt2str (D.syms false)) ++ '-' :: '-' :: '>' :: ('\n' :: s) := by
      unfold symbolComment
      simp [List.append_assoc]
    rw [e]
    refine afterComment_clean _ _ ?_
    have c1 := symbolLines_clean (hc true)
    have c2 := symbolLines_clean (hc false)
    simp [c1, c2]

/-- `<o><i q="7">a&lt;b</i><i>5000000000</i></o>` -/
example (gm : Gm) (flt : List UInt8 → CStr) : ∃ fuel s, xbwText demoEnv print7.file gm flt (fun _ => List.replicate 4097 '?') fuel = .ok (some ("<?xml version=\"1.0\" encoding=\"utf-8\"?>\n".toList ++
      symbolComment xbt2str deskDoc ++ s)) ∧ deskDoc.syms true ≠ [] ∧
    readDoc s = some [.opened ['o'] [], .opened ['i'] [(['q'], ['7'])], .chars ['a', '<', 'b'], .closed ['i'], .opened ['i'] [], .chars "5000000000".toList, .closed ['i'], .closed ['o']] := by
  obtain ⟨D, h, ⟨b1, b2, b3, b4⟩, a1, a2, a3, a4, a5⟩ := print_sess' gm flt
  obtain ⟨n, hn⟩ := C82_listing_partial demoEnv 0x8000 (by decide) (by decide) print7 D h printTree a1 a2 a3 gm flt a4 (fun _ => List.replicate 4097 '?') (fun _ => List.length_replicate)
    (by intro b; cases b <;> assumption)
  obtain ⟨s, h1, h2, -⟩ := hn n (Nat.le_refl _)
  refine ⟨n, s, ?_, by decide, by rw [h2, a5]⟩
  rw [h1]
  unfold symbolComment
  rw [b3, b4]

/-- C82 is false of a document closed before `allRegistered`: `xb2xml` prints a null pointer. -/
theorem C82_unready_false (gm : Gm) (flt : List UInt8 → CStr) (junk : Int → CStr) (fuel : Nat) :
    (∃ D, Sess demoEnv 0x8000 lone1 D ∧ D.syms true = [⟨b8 "a", INT32⟩]) ∧ xbwText demoEnv lone1.file gm flt junk fuel = .ub := by
  refine ⟨lone_sess.1, ?_⟩
  have d : (match openFile demoEnv false (toolSize (ofU 32 (lone1.file.size % 2 ^ 32))).toNat lone1.file with
    | .ok (some g) => (match g.pool.printSyms true (g.pool.tags.maxId + 1).toNat 0 with | .ub => true | _ => false) | _ => false) = true := by decide +kernel
  have d' : ¬ ¬ ofU 32 (lone1.file.size % 2 ^ 32) > 0 := by decide +kernel
  unfold xbwText
  simp only
  rw [if_neg d']
  split at d
  · next g hg =>
    rw [hg, Out.ok_bind]
    simp only
    split at d
    · next hu => rw [hu]; rfl
    · cases d
  · cases d

/-- C82 is false of a file that is smaller than a header: `xb2xml`, which should only read it, makes an empty document of it, which it cannot print. -/
theorem C82_small_false (E : Env) (f : Img) (h0 : 0 < f.size) (h92 : f.size < 92) (ht : E.trunc 0x4000 = true) (gm : Gm) (flt : List UInt8 → CStr) (junk : Int → CStr) (fuel : Nat) :
    (∃ g, openFile E false (toolSize f.size).toNat f = .ok (some g) ∧ g.pool.file.size = 0x4000 ∧ ∀ i, 92 ≤ i → g.pool.file.mem i = 0) ∧ xbwText E f gm flt junk fuel = .ub := by
  have hsize : ofU 32 (f.size % 2 ^ 32) = (f.size : Int) := by
    rw [Nat.mod_eq_of_lt (by omega)]
    unfold ofU
    rw [if_pos (by simp; omega)]
  have ho : openFile E false (toolSize f.size).toNat f = .ok (some ⟨{ Pool.empty (toolSize f.size).toNat with mem := fun i => if 92 ≤ i ∧ i < (⟨f.mem, 0⟩ : Img).size ∧ i < 0x4000 then f.mem i else 0 }, false, 0⟩) := by
    unfold openFile initEmpty
    rw [if_pos h92, if_pos ht]; rfl
  refine ⟨⟨_, ho, rfl, fun i hi => ?_⟩, ?_⟩
  · rw [show ∀ P : Pool, P.file.mem i = P.mem i from fun P => file_mem P i hi]
    simp
  · unfold xbwText
    simp only
    rw [hsize, if_neg (by omega), ho, Out.ok_bind]
    rfl

example : (∃ f : Img, 0 < f.size ∧ f.size < 92) ∧ demoEnv.trunc 0x4000 = true := ⟨⟨⟨fun _ => 0, 20⟩, by decide, by decide⟩, rfl⟩

/-- a document with one tag, of the name `a-->` -/
def arrow1 : Pool := poolOfReg ((Pool.empty 0x8000).register true (b8 "a-->") INT32)
def arrow2 : Pool := poolOfB (arrow1.allRegistered demoEnv)

/-- C82 is false of names with `-->`: the comment ends in the middle of the names, and a reader takes the rest of them for the text of the document. -/
theorem C82_comment_false : ∃ P D, Sess demoEnv 0x8000 P D ∧ D.ready true = true ∧ D.syms true = [⟨b8 "a-->", INT32⟩] ∧
    ∀ s, afterComment ((symbolComment xbt2str D).drop 4 ++ s) = some (" : XBT_INT32\n\nATTR NAMES:\n-->\n".toList ++ s) := by
  have r1 : (Pool.empty 0x8000).register true (b8 "a-->") INT32 = .ok (arrow1, 0) := poolOfReg_eq (by decide +kernel)
  have r2 : arrow1.allRegistered demoEnv = .ok (arrow2, true) := poolOfB_eq (by decide +kernel)
  have s1 := Sess.registered (E := demoEnv) (maxSize := 0x8000) Sess.start (by decide) (by decide) (Or.inl (by decide)) r1 (by decide)
  have s2 := Sess.allRegistered s1 r2
  refine ⟨_, _, s2, by decide, by decide, fun s => ?_⟩
  rfl

end BX
