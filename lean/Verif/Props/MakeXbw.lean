import Verif.Props.Open
import Verif.Props.Copy
import Verif.Lemmas.MakeXbw
/-
C74: making a writable document of a text source.
-/
namespace BX
open XBT Spec

/-! ### the symbols -/

/-- registering whole tables of symbols does nothing to a new document -/
theorem registerTable_fresh (n : Nat) (m : Mem) (b : Bool) : ∀ (t : SymTab) (i : Nat),
    Plug.registerTable b t i ⟨{ Pool.empty n with mem := m }, false, 0⟩ = .ok ⟨{ Pool.empty n with mem := m }, false, 0⟩
  | [], _ => rfl
  | s :: t, i => by
    unfold Plug.registerTable
    have h : Plug.registerId ⟨{ Pool.empty n with mem := m }, false, 0⟩ b i s.1 s.2 = .ok (⟨{ Pool.empty n with mem := m }, false, 0⟩, false) := by
      unfold Plug.registerId
      split
      · rfl
      · cases b <;> rfl
    rw [h, Out.ok_bind]
    exact registerTable_fresh n m b t (i + 1)

theorem openFile_new {E : Env} {n : Nat} {f : Img} {g : Plug} (h : openFile E true n f = .ok (some g)) :
    ∃ m, g = ⟨{ Pool.empty (if f.size < 92 then n else (f.field 36).toNat) with mem := m }, false, 0⟩ := by
  have key : ∀ {N : Nat} {f' : Img}, initEmpty E N f' = .ok (some g) → ∃ m, g = ⟨{ Pool.empty N with mem := m }, false, 0⟩ := by
    intro N f' h
    unfold initEmpty at h
    split at h
    · cases h; exact ⟨_, rfl⟩
    · cases h
  unfold openFile at h
  split at h
  next hs => rw [if_pos hs]; exact key h
  next hs =>
    rw [if_neg hs]
    split at h
    · cases h
    · rw [if_pos rfl] at h; exact key h

/-- the first part of `Make_xbw`: an empty document -/
theorem makeXbw_begin {E : Env} {flt : CStr → List UInt8} {filesize : Nat} {f : Img} {e : Elem} {P : Pool} (h : makeXbw E flt filesize f e = .ok (some P, true)) :
    ∃ m P1 P2 o, Pool.allRegistered E { Pool.empty (mapped filesize f) with mem := m } = .ok (P1, true) ∧ storeXbw E ⟨regAll (tagOps e), regAll (paramOps e), flt, 0⟩ e P1 = .ok (P2, some o) ∧ P2.setRoot (some (o : Int)) = .ok P := by
  unfold makeXbw at h
  obtain ⟨g, h1, h⟩ := Out.bind_eq_ok h
  cases g with
  | none => cases h
  | some g =>
    obtain ⟨m, rfl⟩ := openFile_new h1
    simp only at h
    rw [registerTable_fresh, Out.ok_bind, registerTable_fresh, Out.ok_bind] at h
    obtain ⟨⟨g1, r⟩, h2, h⟩ := Out.bind_eq_ok h
    simp only at h
    split at h
    · cases h
    next hr =>
    have hr : r = true := by simpa using hr
    subst hr
    obtain ⟨⟨P2, s⟩, h3, h⟩ := Out.bind_eq_ok h
    cases s with
    | none => cases h
    | some o =>
      simp only at h
      obtain ⟨P3, h4, h⟩ := Out.bind_eq_ok h
      cases h
      refine ⟨m, g1.pool, P2, o, ?_, h3, h4⟩
      unfold Plug.allRegistered at h2
      unfold Pool.allRegistered
      obtain ⟨⟨A, a⟩, k1, h2⟩ := Out.bind_eq_ok h2
      simp only at k1 h2
      unfold mapped
      rw [k1]
      simp only [Out.ok_bind]
      split at h2
      · cases h2
      next hs =>
      rw [if_neg hs]
      rw [if_neg (by simp)] at h2
      obtain ⟨⟨B, b⟩, k2, h2⟩ := Out.bind_eq_ok h2
      rw [k2]
      simp only [Out.ok_bind]
      simp only at h2
      split at h2
      · cases h2
      next hs2 =>
      rw [if_neg hs2]
      obtain ⟨⟨C, c⟩, k3, h2⟩ := Out.bind_eq_ok h2
      cases h2
      exact k3

/-- what `C74` is about -/
theorem makeXbw_facts {E : Env} {flt : CStr → List UInt8} (hflt : ∀ s, (flt s).length = 4) {filesize : Nat} {f : Img} (h1 : 0x4000 ≤ mapped filesize f) (h2 : mapped filesize f < 2147483648) {e : Elem}
    (hn : NamesIn NoNul NoNul e) (hc : CTexts e) {t : CTree} (ht : treeStored flt (regAll (tagOps e)) (regAll (paramOps e)) e = some t) {P : Pool} (h : makeXbw E flt filesize f e = .ok (some P, true)) :
    ∃ D, Sess E (mapped filesize f) P D ∧ D.root = P.root ∧ D.forest.Elem P.root ∧ D.syms = (fun _ => []) ∧ elemValue P P.root = .ok t.value ∧ ∃ N, ∀ fuel, N ≤ fuel → DocShows P fuel P.root t := by
  obtain ⟨hn1, hn2⟩ := ops_of_namesIn _ _ e hn
  obtain ⟨m, P1, P2, o, k1, k2, k3⟩ := makeXbw_begin h
  have s1 := Sess.allRegistered (Sess.created (E := E) (maxSize := mapped filesize f) (m := m)) k1
  obtain ⟨o', k, D2, e1, -, -, s2, gr, hT, hd⟩ := storeXbw_ok h1 h2 (c := ⟨regAll (tagOps e), regAll (paramOps e), flt, 0⟩) hflt (regAll_good _ hn1) (regAll_good _ hn2) e t P1 P2 _ _ s1 hn hc ht k2
  cases e1
  have ho : ∀ D : Doc, (D.plus k o true t.id t.value.type t.value.bytes).forest.Elem o := fun D => ⟨.loose k, by rw [plus_at, if_pos rfl]; exact List.mem_singleton.mpr rfl⟩
  obtain ⟨he, -, -, ht1, ht2⟩ := gr.elem o (ho _)
  have s3 := Sess.rooted s2 he k3
  have hr2 : D2.root = 0 := gr.root
  obtain ⟨els, V, fl, K⟩ := sess_keeps h1 h2 s3
  have hroot : P.root = o := by rw [K.root]; simp [hr2]
  have hE := K.elem o ((K.lists.mem o).1 he)
  have e2 : D2.type o = t.value.type := ht1.trans (if_pos rfl)
  have e3 : D2.val o = t.value.bytes := ht2.trans (if_pos rfl)
  simp only [e2, e3] at hE
  have hb : Below o D2 { D2 with root := if D2.root = 0 then o else D2.root } := ⟨fun _ _ _ => ⟨rfl, rfl⟩, fun _ hx => ⟨hx, rfl, rfl, rfl⟩⟩
  obtain ⟨id, v, as, ks⟩ := t
  obtain ⟨a1, a2, a3⟩ := hT
  refine ⟨_, s3, K.root.symm, hroot ▸ he, gr.syms, ?_, ?_⟩
  · rw [hroot]; exact elemValue_spec hE K.sees.size.1 hd
  · rw [hroot]
    exact hasTree_shows K _ o he ⟨a1, attrsAre_mono (fun _ hx => hx) hb _ _ a2, hasKids_mono (fun _ hx => hx) hb (ho _) _ _ a3⟩

/-- C74, as far as it is true: where a document is made of a source of texts, of which every element and attribute is stored (`treeStored`: the text is
converted to the type that all uses of the name allow, a tag without a value has none), into any file, mapped for fewer than two gigabytes, then its
root shows exactly the tree of the source: names as positions in the symbol tables, values, attributes and children in their order; and the
document is one that the calls of C36 to C73 work on (`Sess`). -/
theorem C74_tree_partial (E : Env) (flt : CStr → List UInt8) (hflt : ∀ s, (flt s).length = 4) (filesize : Nat) (f : Img) (h1 : 0x4000 ≤ mapped filesize f) (h2 : mapped filesize f < 2147483648) (e : Elem)
    (hn : NamesIn NoNul NoNul e) (hc : CTexts e) (t : CTree) (ht : treeStored flt (regAll (tagOps e)) (regAll (paramOps e)) e = some t) (P : Pool) (h : makeXbw E flt filesize f e = .ok (some P, true)) :
    ∃ D, Sess E (mapped filesize f) P D ∧ D.root = P.root ∧ D.forest.Elem P.root ∧ elemValue P P.root = .ok t.value ∧ ∃ N, ∀ fuel, N ≤ fuel → DocShows P fuel P.root t := by
  obtain ⟨D, a1, a2, a3, -, a4, a5⟩ := makeXbw_facts hflt h1 h2 hn hc ht h
  exact ⟨D, a1, a2, a3, a4, a5⟩

/-- C74 is false in one respect for every source: the document does not know the names, of tags and of attributes; each identification used in the tree is
one without a name. (The registrations are refused by the new document.) -/
theorem C74_names_false (E : Env) (flt : CStr → List UInt8) (hflt : ∀ s, (flt s).length = 4) (filesize : Nat) (f : Img) (h1 : 0x4000 ≤ mapped filesize f) (h2 : mapped filesize f < 2147483648) (e : Elem)
    (hn : NamesIn NoNul NoNul e) (hc : CTexts e) (t : CTree) (ht : treeStored flt (regAll (tagOps e)) (regAll (paramOps e)) e = some t) (P : Pool) (h : makeXbw E flt filesize f e = .ok (some P, true)) (b : Bool) (id : Int) :
    P.symName b id = .ok none := by
  obtain ⟨D, a1, -, -, a4, -⟩ := makeXbw_facts hflt h1 h2 hn hc ht h
  obtain ⟨els, V, fl, K⟩ := sess_keeps h1 h2 a1
  have hm := (K.tabs b).max
  rw [a4] at hm
  unfold Pool.symName
  rw [if_pos]
  · rfl
  · simp only [List.length_nil] at hm
    omega

/-! ### cases -/

def noFile : Img := ⟨fun _ => 0, 0⟩
def zeroFlt : CStr → List UInt8 := fun _ => [0, 0, 0, 0]
/-- the document made of a source -/
def madeOf (e : Elem) : Pool := match makeXbw demoEnv zeroFlt 100 noFile e with | .ok (some P, _) => P | _ => Pool.empty 0

/-- the result of making one -/
def madeRes (e : Elem) : Out Bool := do let r ← makeXbw demoEnv zeroFlt 100 noFile e; return r.2

theorem madeOf_eq {e : Elem} (h : madeRes e = .ok true) : makeXbw demoEnv zeroFlt 100 noFile e = .ok (some (madeOf e), true) := by
  unfold madeRes at h
  obtain ⟨⟨p, b⟩, h1, h2⟩ := Out.bind_eq_ok h
  cases h2
  cases p with
  | none =>
    exfalso
    have hh := h1
    unfold makeXbw at hh
    obtain ⟨g, -, hh⟩ := Out.bind_eq_ok hh
    cases g with
    | none => cases hh
    | some g =>
      obtain ⟨_, -, hh⟩ := Out.bind_eq_ok hh
      obtain ⟨_, -, hh⟩ := Out.bind_eq_ok hh
      obtain ⟨_, -, hh⟩ := Out.bind_eq_ok hh
      split at hh
      · cases hh
      · obtain ⟨⟨_, s⟩, -, hh⟩ := Out.bind_eq_ok hh
        cases s with
        | none => cases hh
        | some o => obtain ⟨_, -, hh⟩ := Out.bind_eq_ok hh; cases hh
  | some P => unfold madeOf; rw [h1]

theorem source_texts : CTexts copySource := by
  simp only [copySource, CTexts, CTextsAll, List.forall_mem_cons, List.not_mem_nil, false_implies, implies_true, CVal, CText]
  decide +kernel

/-- a source with attributes, children and values meets the conditions -/
example : ∃ N, ∀ fuel, N ≤ fuel → DocShows (madeOf copySource) fuel (madeOf copySource).root copyTree := by
  have h1 : madeRes copySource = .ok true := by decide +kernel
  have h2 : treeStored zeroFlt (regAll (tagOps copySource)) (regAll (paramOps copySource)) copySource = some copyTree := by
    have t1 : regAll (tagOps copySource) = [(b8 "i", INT32), (b8 "o", NULL)] ∧ regAll (paramOps copySource) = [(b8 "n", STRING), (b8 "q", INT32)] ∧
        textData zeroFlt ['x'] STRING = some ⟨STRING, b8 "x" ++ [0]⟩ ∧ textData zeroFlt ['1', '7'] INT32 = some ⟨INT32, le32 17⟩ ∧ textData zeroFlt ['5'] INT32 = some ⟨INT32, le32 5⟩ ∧
        textData zeroFlt ['1', '.', '5', '.'] STRING = some ⟨STRING, b8 "1.5." ++ [0]⟩ := by decide +kernel
    have t2 : (b8 "o" ≠ b8 "et-tecera" ∧ b8 "i" ≠ b8 "et-tecera" ∧ b8 "n" ≠ b8 "et-tecera" ∧ b8 "q" ≠ b8 "et-tecera") ∧ b8 "i" ≠ b8 "o" ∧ b8 "n" ≠ b8 "q" := by decide +kernel
    obtain ⟨t1, t3, t4, t5, t6, t7⟩ := t1
    rw [t1, t3]
    simp [copySource, copyTree, treeStored, treesStored, attrsStored, attrStored, symbolIn, storedAs, t2, t4, t5, t6, t7]
  have h3 : mapped 100 noFile = 0x40000 := by decide +kernel
  obtain ⟨_, -, -, -, -, h⟩ := C74_tree_partial demoEnv zeroFlt (fun _ => rfl) 100 noFile (by rw [h3]; decide) (by rw [h3]; decide) copySource (by simp only [copySource, NamesIn, NamesInAll]; decide +kernel) source_texts copyTree h2 _ (madeOf_eq h1)
  exact h

/-! ### where it is false -/

/-- the values of some elements -/
def valuesOf (P : Pool) : List Int → Out (List Data)
  | [] => return []
  | e :: es => do let d ← elemValue P e; let ds ← valuesOf P es; return d :: ds

/-- the values of the children of the root -/
def madeKids (e : Elem) : Out (List Data) := do
  let l ← (madeOf e).forwards (madeOf e).root 10 0
  valuesOf (madeOf e) l

/-- `<a><i>5</i><i/></a>` -/
def mixedSource : Elem := .mk (b8 "a") .none [] [.mk (b8 "i") (.text "5".toList) [] [], .mk (b8 "i") .none [] []]
/-- C74 is false in general: a tag that has a number in one place and no value in another has the type of the number, and the conversion of the missing
text reads from a null pointer. -/
theorem C74_mixed_false : madeRes mixedSource = .ub := by decide +kernel

/-- `<a><i>5</i><i></i></a>`, with an empty text -/
def emptySource : Elem := .mk (b8 "a") .none [] [.mk (b8 "i") (.text "5".toList) [] [], .mk (b8 "i") (.text []) [] []]
/-- C74 is false in general: an empty text becomes the number 0 where the name has numbers elsewhere. -/
theorem C74_empty_false : madeRes emptySource = .ok true ∧ madeKids emptySource = .ok [⟨INT32, le32 5⟩, ⟨INT32, le32 0⟩] := by decide +kernel

/-- `<a><b>1</b><et-tecera>2</et-tecera><b>3</b></a>` -/
def reservedSource : Elem := .mk (b8 "a") .none [] [.mk (b8 "b") (.text "1".toList) [] [], .mk (b8 "et-tecera") (.text "2".toList) [] [], .mk (b8 "b") (.text "3".toList) [] []]
/-- C74 is false in general: elements of the reserved name are left out, and the result is success. -/
theorem C74_reserved_false : madeRes reservedSource = .ok true ∧ madeKids reservedSource = .ok [⟨INT32, le32 1⟩, ⟨INT32, le32 3⟩] := by decide +kernel

/-- an element with a binary value, and elements below it -/
def binSource : Elem := .mk (b8 "a") .none [] [.mk (b8 "b") (.bin INT32 (le32 1)) [] [.mk (b8 "d") (.text "7".toList) [] []], .mk (b8 "c") (.text "3".toList) [] []]
/-- C74 is false in general: an element whose value the source gives in binary form is left out with all that is below it, and the result is success. -/
theorem C74_binary_false : madeRes binSource = .ok true ∧ madeKids binSource = .ok [⟨INT32, le32 3⟩] := by decide +kernel

end BX
