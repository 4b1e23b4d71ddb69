import Verif.Lemmas.JsonXb
import Verif.Props.Json
/-
C86: a JSON file converted to a binary document reads as the JSON document.
-/
namespace BX
open XBT Spec

theorem find_null {t : SymTab} (ht : t.Good) (h : b8 "NULL" ∉ t.names) : t.find (some (b8 "NULL")) = -1 := by
  unfold SymTab.find
  have hn : NoNul (b8 "NULL") := by unfold NoNul; decide
  simp only [if_neg (show b8 "NULL" ≠ etTecera by decide)]
  rcases ht.search_spec hn with ⟨M, hM, hm⟩ | ⟨P, hP, -, -⟩
  · exact absurd (List.mem_of_getElem? hm) h
  · simp only [hP]

/-- C86, as far as it is true: a JSON document in which no array is under an empty key and no element is called `NULL`, whose texts can be stored, converted with enough room by a creator that asks for
the value of an element before its name, gives a file that the reader accepts and in which the root reads as the document: every value once, in order, under its name (`NULL` if it has none) and with
its text. -/
theorem C86_json_partial (flt : CStr → List UInt8) (hflt : ∀ s, (flt s).length = 4) (tot : Nat → Int) (filename : BStr) (hfn : NoNul filename) (mtime : Int) (m0 : Mem) (v : JV) (w w' : BStr)
    (hv : v.Ok) (hk : v.KeysNamed) (hw : Blank w) (hw' : Blank w') (hnull : b8 "NULL" ∉ v.names none none) (hfew : FewNames 32768 (v.names none none)) (hst : ∀ s ∈ v.leaves, Storable flt s)
    (hsz : 1024 + (w ++ v.text ++ w').length * 4 < 2147483648)
    (hroom : 200 + filename.length + ((v.names none none).map fun s => s.length + 6).sum + need (v.elem none none) ≤ 1024 + (w ++ v.text ++ w').length * 4) (fuel : Nat) :
    ∃ f r x, jsonToXb flt false tot filename mtime m0 (w ++ v.text ++ w') = .ok f ∧ f.initialize (fuel + 1) = .ok r ∧ r.root = some x ∧ Reads flt (fun _ => UNKNOWN) f r (v.elem none none) x := by
  obtain ⟨d, h1, h2⟩ := shown_doc tot v w w' True hv (fun _ => hk) hw hw'
  obtain ⟨d', h1', h3, -⟩ := C43_sizes tot v w w' hv hw hw'
  rw [h1] at h1'
  cases h1'
  obtain ⟨l, ts, g1, g2, g3⟩ := JV.regs v none none JDoc.root 0 (2 * d.toks.length + 2) h2 (by omega)
  have hmem : ∀ s, (∃ op ∈ ts, op.name = s) ↔ s ∈ v.names none none := by
    intro s
    rw [← g3, List.mem_map]
  have hnn : ∀ s ∈ v.names none none, NoNul s := JV.names_noNul v none none hv (by rintro s ⟨⟩) (by rintro s ⟨⟩)
  have hn1 : ∀ op ∈ ts, NoNul op.name := fun op hop => hnn _ ((hmem _).1 ⟨op, hop, rfl⟩)
  have hmost : AtMost 32768 ts := fun m hm hs => hfew m hm fun s h => (hmem s).1 (hs s h)
  have hgt := regAll_good _ hn1
  have hgp : SymTab.Good [] := regAll_good [] (by simp)
  have htab : ∀ s, s ∈ (regAll ts).names ↔ s ∈ v.names none none := by
    intro s
    rw [← hmem, ← C25_members ts hn1 hmost s]
    simp [SymTab.names]
  have hN := find_null hgt (fun h => hnull ((htab _).1 h))
  have hlen : ((w ++ v.text ++ w') : List UInt8) ≠ [] := by
    intro he
    rw [he] at h1
    have : jsonInit tot [] ≠ .ok d := by
      rw [C60_blank_false tot [] (by intro c hc; cases hc)]
      simp
    exact this h1
  generalize hc : (⟨regAll ts, [], flt, 1024 + (w ++ v.text ++ w').length * 4⟩ : Ctx) = c
  have hNc : c.tags.find (some (b8 "NULL")) = -1 := by rw [← hc]; exact hN
  have hlim : c.limit < 2147483648 := by rw [← hc]; exact hsz
  have hfc : ∀ s, (c.flt s).length = 4 := by rw [← hc]; exact hflt
  have hwrite := JV.write hNc v none none JDoc.root (2 * d.toks.length + 2) h2 (by omega)
  have hok : TreeOk c.ptype (v.elem none none) := JV.treeOk v none none fun s hs => ⟨cText_toC (JV.leaves_noNul v hv s hs), (hst s hs).1⟩
  have hdoc : TextDoc c.flt c.ptype (v.elem none none) := JV.textDoc v none none (fun s hs => by rw [← hc]; exact (hst s hs).2) (by omega)
  have hneed := tabNeed ts
  have hsum : (ts.map fun op => op.name.length + 6) = (v.names none none).map fun s => s.length + 6 := by
    rw [← g3, List.map_map]; rfl
  rw [hsum] at hneed
  obtain ⟨m', len, k1, k2⟩ := fillData_total hfc filename mtime (v.elem none none) m0 hdoc hok _ 0 (by rw [← hc]; exact hneed) (by rw [← hc]; simp) (by rw [← hc]; simp only; omega)
  have hl := aa_lt len
  have hcl : c.limit = 1024 + (w ++ v.text ++ w').length * 4 := by rw [← hc]
  obtain ⟨x1, s1, x2, s2, x3, hq⟩ := fillData_spec hfc hlim k1 hok (by omega) ⟨m', aa len⟩ (by simp only; omega) (aa_ge len) (fun _ _ => rfl)
  have hgt' : c.tags.Good := by rw [← hc]; exact hgt
  have hgp' : c.params.Good := by rw [← hc]; exact hgp
  refine ⟨⟨m', aa len⟩, _, _, ?_, hq.initialize hfn hgt' hgp' fuel, rfl, ?_⟩
  · unfold jsonToXb
    rw [if_neg hlen, h1, Out.ok_bind, g1, Out.ok_bind, g2, Out.ok_bind]
    simp only [hc]
    rw [fillData_json hwrite, k1]
    rfl
  · have hr := hq.reads ⟨rtab x1 c.tags, rtab x2 c.params, some ((x3 + 20 : Nat) : Int)⟩ (JV.namesIn ?_ v none none ?_)
    · have hcf : c.flt = flt := by rw [← hc]
      rw [hcf] at hr
      refine Reads.congr _ _ (JV.namesIn trivial v none none fun _ _ => trivial) hr
    · exact ⟨by rw [hNc]; omega, by rw [hNc]; rfl⟩
    · intro s hs
      refine find_getSymbol hq.tab1 hgt' (hnn s hs) ?_
      rw [← hc]
      exact (C25_members ts hn1 hmost s).2 ((hmem s).2 hs)

/-- a document that meets the conditions: an object with an array of an object and a number, and a string with an escape -/
example (fuel : Nat) : ∃ f r x, jsonToXb (fun _ => [0, 0, 0, 0]) false (fun _ => 0) (b8 "f.json") 5 (fun _ => 7) ([32] ++ sampleJson.text ++ []) = .ok f ∧ f.initialize (fuel + 1) = .ok r ∧ r.root = some x ∧
    Reads (fun _ => [0, 0, 0, 0]) (fun _ => UNKNOWN) f r
      (.mk (b8 "NULL") .none [] [.mk (b8 "files") .none [] [.mk (b8 "file") .none [] [.mk (b8 "name") (.text "a".toList) [] []], .mk (b8 "file") (.text "7".toList) [] []],
        .mk (b8 "n") (.text "\\u00e1".toList) [] []]) x := by
  have he : sampleJson.elem none none = (.mk (b8 "NULL") .none [] [.mk (b8 "files") .none [] [.mk (b8 "file") .none [] [.mk (b8 "name") (.text "a".toList) [] []], .mk (b8 "file") (.text "7".toList) [] []],
        .mk (b8 "n") (.text "\\u00e1".toList) [] []]) := by rfl
  have hn : sampleJson.names none none = [b8 "files", b8 "file", b8 "name", b8 "file", b8 "n"] := by decide +kernel
  have hl : sampleJson.leaves = [b8 "a", b8 "7", b8 "\\u00e1"] := by decide +kernel
  rw [← he]
  refine C86_json_partial _ (fun _ => rfl) _ _ (by unfold NoNul; decide) _ _ sampleJson [32] [] sampleJson_ok sampleJson_named (by intro c hc; simp at hc; simp [hc]) (by intro c hc; simp at hc)
    (by rw [hn]; decide) ?_ ?_ (by decide +kernel) (by rw [hn]; decide +kernel) fuel
  · intro m hm hs
    exact Nat.le_trans (nodup_length_le m _ hm hs) (by rw [hn]; decide)
  · rw [hl]
    intro s hs
    simp only [List.mem_cons, List.not_mem_nil, or_false] at hs
    unfold Storable
    rcases hs with rfl | rfl | rfl <;> exact ⟨by decide +kernel, by decide +kernel⟩

/-- the name of an item, for the cases below -/
def nameAt (f : Img) (x : Int) (r : Rd) : Out BStr := do
  let id ← f.name x
  f.getSymbol r.tags id

/-- converting a JSON text, opening the file and looking at the `i`-th child of the root -/
def jsonChild (nameFirst : Bool) (js : BStr) (i : Nat) (look : Img → Rd → Int → Out α) : Out α := do
  let f ← jsonToXb (fun _ => [0, 0, 0, 0]) nameFirst (fun _ => 0) (b8 "f.json") 0 (fun _ => 0) js
  let r ← f.initialize 1
  match r.root with
  | none => .fail
  | some x => do
    let y ← f.getChildByIndex x i
    match y with
    | none => .fail
    | some y => look f r y

/-- C86 is false for a creator that asks for the name first (the standard leaves it to the compiler): the text of the value is registered as a name, and the name is not found. -/
theorem C86_order_false :
    jsonChild true (b8 "{\"a\":\"hello\"}") 0 (fun f r y => nameAt f y r) = .ok (b8 "NULL") ∧ jsonChild false (b8 "{\"a\":\"hello\"}") 0 (fun f r y => nameAt f y r) = .ok (b8 "a") := by
  decide +kernel

/-- C86 is false for long lists of short values: the buffer of the creator has four bytes for a character, an element takes at least sixteen, so the conversion writes behind the buffer. -/
theorem C86_room_false : (match jsonToXb (fun _ => [0, 0, 0, 0]) false (fun _ => 0) (b8 "f.json") 0 (fun _ => 0) (b8 "{\"a\":[" ++ (List.replicate 70 [49, 44]).flatten ++ b8 "1]}") with | .ub => true | _ => false) = true := by
  decide +kernel

/-- C86 is false for the types of names: the type in the table is that of the name and not that of the values. (Not so for the elements of arrays in arrays: their name is not in the buffer that the value
is written to.) -/
theorem C86_types_false :
    jsonChild false (b8 "{\"size\":1}") 0 (fun f r y => do let id ← f.name y; f.getType r.tags id) = .ok STRING.code ∧
    jsonChild false (b8 "[[1]]") 0 (fun f r y => do
      let z ← f.getChildByIndex y 0
      match z with
      | none => .fail
      | some z => do let id ← f.name z; f.getType r.tags id) = .ok INT32.code := by
  decide +kernel

end BX
