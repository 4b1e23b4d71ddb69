import Verif.Lemmas.CopyTree
import Verif.Props.Attrs
/-
C53: copying a tree of elements of a file into a writable document.
-/
namespace BX
open XBT Spec

theorem elemValue_spec {P : Pool} {e : Nat} {id : Int} {d : Data} (h : ElemAt P e id d.type d.bytes) (hs : P.alloc ≤ P.fileSize) (hd : DataGood d) : elemValue P e = .ok d := by
  obtain ⟨r, r1, r2, r3, r4, r5, -⟩ := getData_spec h hs hd.1
  rw [hd.2] at r4 r5
  have hhi := h.hi
  unfold elemValue
  rw [r1, Out.ok_bind, r2]
  simp only
  rw [if_neg (by omega), Img.rd_ok (f := P.img) (a := e + 24) r5 (by show _ ≤ P.fileSize; omega) _ (by omega) _ (by omega)]
  rfl

theorem attrsAre_read {P : Pool} {D D0 : Doc} {els V fl} (k : Keeps P D els V fl) : ∀ (l : List Nat) (as : List (Int × Data)), AttrsAre D0 D l as →
    (l.map Int.ofNat).length = as.length ∧ ∀ i (h : i < (l.map Int.ofNat).length) (h' : i < as.length), P.eId (l.map Int.ofNat)[i] = .ok as[i].1 ∧ elemValue P (l.map Int.ofNat)[i] = .ok as[i].2
  | [], [], _ => ⟨rfl, fun i h => by simp at h⟩
  | [], _ :: _, hh => hh.elim
  | _ :: _, [], hh => hh.elim
  | a :: l, x :: as, ⟨_, a2, a3, a4, a5, a6, a7⟩ => by
    obtain ⟨h1, h2⟩ := attrsAre_read k l as a7
    have hsz := k.sees.size
    have he := k.elem a ((k.lists.mem a).1 a2)
    rw [a4, a5] at he
    refine ⟨by simp only [List.map_cons, List.length_cons, h1], fun i h h' => ?_⟩
    cases i with
    | zero =>
      simp only [List.map_cons, List.getElem_cons_zero]
      exact ⟨by rw [← a3]; exact he.eId hsz.1, elemValue_spec he hsz.1 a6⟩
    | succ i =>
      simp only [List.map_cons, List.getElem_cons_succ]
      exact h2 i (by simpa using h) (by simpa using h')

mutual
theorem hasTree_shows {P : Pool} {D D0 : Doc} {els V fl} (k : Keeps P D els V fl) : ∀ (t : CTree) (e : Nat), D.forest.Elem e → HasTree D0 D e t → ∃ N, ∀ fuel, N ≤ fuel → DocShows P fuel e t
  | .mk id v as ks, e, he, ⟨h1, h2, h3⟩ => by
    obtain ⟨N, hN⟩ := hasKids_shows k ks _ h3
    obtain ⟨a1, a2⟩ := attrsAre_read k _ _ h2
    have hm := (k.lists.mem e).1 he
    refine ⟨N + (D.forest.at' (.attrs e)).length + (D.forest.at' (.kids e)).length + 1, fun fuel hf => ?_⟩
    unfold DocShows
    refine ⟨by rw [← h1]; exact (k.elem e hm).eId k.sees.size.1, ⟨_, enum_list k.sees k.lists hm (k := 20) (Or.inr rfl) (by show (D.forest.at' (.attrs e)).length < fuel; omega), a1, a2⟩, _,
      enum_forwards k.sees k.lists hm (by omega), hN fuel (by omega)⟩
theorem hasKids_shows {P : Pool} {D D0 : Doc} {els V fl} (k : Keeps P D els V fl) : ∀ (ks : List CTree) (l : List Nat), HasKids D0 D l ks → ∃ N, ∀ fuel, N ≤ fuel → DocShowsKids P fuel (l.map Int.ofNat) ks
  | [], [], _ => ⟨0, fun _ _ => by simp only [List.map_nil]; unfold DocShowsKids; trivial⟩
  | _ :: _, [], hh => by unfold HasKids at hh; exact hh.elim
  | [], _ :: _, hh => by unfold HasKids at hh; exact hh.elim
  | t :: ks, e :: es, hh => by
    unfold HasKids at hh
    obtain ⟨-, a2, a3, a4, a5, a6, a7⟩ := hh
    obtain ⟨N, hN⟩ := hasTree_shows k t e a2 a6
    obtain ⟨M, hM⟩ := hasKids_shows k ks es a7
    refine ⟨N + M, fun fuel hf => ?_⟩
    simp only [List.map_cons]
    unfold DocShowsKids
    have he := k.elem e ((k.lists.mem e).1 a2)
    rw [a3, a4] at he
    exact ⟨elemValue_spec he k.sees.size.1 a5, hN fuel (by omega), hM fuel (by omega)⟩
end

/-- C53, as far as it is true: the item at `x` of a file shows a tree, every value of which can be stored with the type of its symbol; `p`
is an element of a writable document with the same identification, no attributes and no children; the attributes of each element need at
most 16000 bytes and there is room. Then `CopyAll` succeeds, afterwards the document shows the same tree below `p` (identifications,
attributes, values and children, in order; texts are converted where the symbol has another type), and the rest of the document is as it was.
(The value of `p` itself is not copied.) -/
theorem C53_copy_partial (E : Env) (hE : ∀ n, E.trunc n = true) (maxSize : Nat) (h1 : 0x4000 ≤ maxSize) (h2 : maxSize < 2147483648) (flt : CStr → List UInt8) (hflt : ∀ s, (flt s).length = 4) (f : Img)
    (hf : f.size < 2147483648) (P : Pool) (D : Doc) (h : Sess E maxSize P D) (p : Nat) (hp : D.forest.Elem p) (hk : D.forest.at' (.kids p) = []) (ha : D.forest.at' (.attrs p) = []) (x : Int) (t t' : CTree)
    (hx : FileShows f x t) (hid : D.id p = t.id) (ht : D.takes flt t = some t') (hl : t.light) (hroom : P.alloc + attrsRoom t.attrs ≤ P.limit) (hbig : P.alloc + t.room + 0x6000 ≤ P.mmapSize) :
    ∃ Q D' N, (∀ fuel, N ≤ fuel → Pool.copyAll E flt f fuel p x P = .ok (Q, true) ∧ DocShows Q fuel p t') ∧ Sess E maxSize Q D' ∧ GrewBelow p D D' := by
  obtain ⟨Q, D', c1, c2, c3, c4, -⟩ := copyAll_ok hE h1 h2 hflt hf t t' x p P D h hp hk ha hid ht hx hroom hl hbig
  obtain ⟨els, V, fl, k⟩ := sess_keeps h1 h2 c2
  obtain ⟨N, hN⟩ := hasTree_shows k t' p (c3.elem p hp).1 c4
  refine ⟨Q, D', N + t.steps, fun fuel hfu => ⟨c1 fuel (by omega), hN fuel (by omega)⟩, c2, c3⟩

/-! ### a file and a document -/

/-- `<o n="x" q="17"><i n="1.5.">5</i><o/></o>` -/
def copySource : Elem :=
  .mk (b8 "o") .none [(b8 "n", .text "x".toList), (b8 "q", .text "17".toList)] [.mk (b8 "i") (.text "5".toList) [(b8 "n", .text "1.5.".toList)] [], .mk (b8 "o") .none [] []]

def fileOf (e : Elem) : Img := match makeXb (fun _ => [0,0,0,0]) (b8 "f") 0 100 (fun _ => 0) e with | .ok f => f | _ => ⟨fun _ => 0, 0⟩

/-- the tree that its reader shows -/
def copyTree : CTree :=
  .mk 1 ⟨NULL, []⟩ [(0, ⟨STRING, b8 "x" ++ [0]⟩), (1, ⟨INT32, le32 17⟩)]
    [.mk 0 ⟨INT32, le32 5⟩ [(0, ⟨STRING, b8 "1.5." ++ [0]⟩)] [], .mk 1 ⟨NULL, []⟩ [] []]

/-- a document with the same symbols (the attribute `n` of a given type) and an element `o` -/
def desk1 : Pool := poolOfReg ((Pool.empty 0x8000).register true (b8 "i") INT32)
def desk2 : Pool := poolOfReg (desk1.register true (b8 "o") NULL)
def desk3 (t : XBT) : Pool := poolOfReg (desk2.register false (b8 "n") t)
def desk4 (t : XBT) : Pool := poolOfReg ((desk3 t).register false (b8 "q") INT32)
def desk5 (t : XBT) : Pool := poolOfB ((desk4 t).allRegistered demoEnv)
def desk6 (t : XBT) : Pool := poolOf ((desk5 t).make demoEnv 1 NULL 0 (tagFlag true) (sizeField NULL 0).length [])


theorem desk_sess (t : XBT) (ht : t = STRING ∨ t = INT32) : ∃ D, Sess demoEnv 0x8000 (desk6 t) D ∧ D.syms true = [⟨b8 "i", INT32⟩, ⟨b8 "o", NULL⟩] ∧ D.syms false = [⟨b8 "n", t⟩, ⟨b8 "q", INT32⟩] ∧ D.ready false = true ∧
    D.ready true = true ∧ D.forest.at' (.loose 0) = [140] ∧ D.forest.at' (.kids 140) = [] ∧ D.forest.at' (.attrs 140) = [] ∧ D.id 140 = 1 := by
  have r1 : (Pool.empty 0x8000).register true (b8 "i") INT32 = .ok (desk1, 0) := poolOfReg_eq (by decide +kernel)
  have r2 : desk1.register true (b8 "o") NULL = .ok (desk2, 1) := poolOfReg_eq (by decide +kernel)
  have r3 : desk2.register false (b8 "n") t = .ok (desk3 t, 0) := by rcases ht with rfl | rfl <;> exact poolOfReg_eq (by decide +kernel)
  have r4 : (desk3 t).register false (b8 "q") INT32 = .ok (desk4 t, 1) := by rcases ht with rfl | rfl <;> exact poolOfReg_eq (by decide +kernel)
  have r5 : (desk4 t).allRegistered demoEnv = .ok (desk5 t, true) := by rcases ht with rfl | rfl <;> exact poolOfB_eq (by decide +kernel)
  have r6 : (desk5 t).make demoEnv 1 NULL 0 (tagFlag true) (sizeField NULL 0).length [] = .ok (desk6 t, some 140) := by rcases ht with rfl | rfl <;> exact poolOf_eq (by decide +kernel)
  have s1 := Sess.registered (E := demoEnv) (maxSize := 0x8000) Sess.start (by decide) (by decide) (Or.inl (by decide)) r1 (by decide)
  have s2 := Sess.registered s1 (by decide) (by decide) (Or.inl (by decide)) r2 (by decide)
  have s3 := Sess.registered s2 (by decide) (by decide) (Or.inl (by decide)) r3 (by decide)
  have s4 := Sess.registered s3 (by decide) (by decide) (Or.inl (by rcases ht with rfl | rfl <;> decide)) r4 (by decide)
  have s5 := Sess.allRegistered s4 r5
  have s6 := Sess.made (k := 0) s5 ⟨by decide, by decide⟩ (by decide) r6 rfl
  refine ⟨_, s6, ?_, ?_, ?_, ?_, rfl, rfl, rfl, rfl⟩ <;> rcases ht with rfl | rfl <;> decide

deriving instance DecidableEq for Data

theorem fileShows_source : FileShows (fileOf copySource) 204 copyTree := by
  unfold copyTree FileShows
  refine ⟨by decide +kernel, by decide +kernel, ?_, by decide +kernel, ?_⟩
  · intro i hi
    match i, hi with
    | 0, _ => exact ⟨216, by decide +kernel, show _ = Out.ok (0 : Int) by decide +kernel, show _ = Out.ok (⟨STRING, b8 "x" ++ [0]⟩ : Data) by decide +kernel⟩
    | 1, _ => exact ⟨224, by decide +kernel, show _ = Out.ok (1 : Int) by decide +kernel, show _ = Out.ok (⟨INT32, le32 17⟩ : Data) by decide +kernel⟩
  · unfold FileShowsKids
    refine ⟨⟨244, by decide +kernel, by decide +kernel, ?_⟩, ?_⟩
    · unfold FileShows
      refine ⟨by decide +kernel, by decide +kernel, ?_, by decide +kernel, by unfold FileShowsKids; trivial⟩
      intro i hi
      match i, hi with
      | 0, _ => exact ⟨256, by decide +kernel, show _ = Out.ok (0 : Int) by decide +kernel, show _ = Out.ok (⟨STRING, b8 "1.5." ++ [0]⟩ : Data) by decide +kernel⟩
    · unfold FileShowsKids
      refine ⟨⟨280, by decide +kernel, by decide +kernel, ?_⟩, by unfold FileShowsKids; trivial⟩
      unfold FileShows
      exact ⟨by decide +kernel, by decide +kernel, fun i hi => absurd hi (by simp), by decide +kernel, by unfold FileShowsKids; trivial⟩

/-- the hypotheses of `C53_copy_partial` are met -/
example : ∃ Q N, ∀ fuel, N ≤ fuel → Pool.copyAll demoEnv (fun _ => [0,0,0,0]) (fileOf copySource) fuel (140 : Nat) 204 (desk6 STRING) = .ok (Q, true) ∧ DocShows Q fuel (140 : Nat) copyTree := by
  obtain ⟨D, h, h1, h2, h3, h4, h5, h6, h7, h8⟩ := desk_sess STRING (Or.inl rfl)
  have hs : ∀ b id, D.typeOf b id = some (D.symType b id) := fun b id => by
    unfold Doc.typeOf
    cases b
    · rw [if_pos ⟨h3, by rw [h2]; simp⟩]
    · rw [if_pos ⟨h4, by rw [h1]; simp⟩]
  have t0 : D.symType false 0 = STRING := by unfold Doc.symType; rw [h2]; rfl
  have t1 : D.symType false 1 = INT32 := by unfold Doc.symType; rw [h2]; rfl
  have t2 : D.symType true 0 = INT32 := by unfold Doc.symType; rw [h1]; rfl
  have ht : D.takes (fun _ => [0,0,0,0]) copyTree = some copyTree := by
    simp only [copyTree, Doc.takes, Doc.takesKids, Doc.takesAttrs, Doc.takesAttr, Doc.takesValue, CTree.id, CTree.value, CTree.attrs, CTree.kids, hs, t0, t1, t2, asType]
    rfl
  obtain ⟨Q, -, N, h, -⟩ := C53_copy_partial demoEnv (fun _ => rfl) 0x8000 (by decide) (by decide) (fun _ => [0,0,0,0]) (fun _ => rfl) (fileOf copySource) (by decide +kernel) (desk6 STRING) D h 140
    ⟨.loose 0, by rw [h5]; simp⟩ h6 h7 204 copyTree copyTree fileShows_source h8 ht (by simp [copyTree, CTree.light, lightKids, attrsRoom, CTree.attrs, b8]) (by decide +kernel) (by decide +kernel)
  exact ⟨Q, N, h⟩

/-- `<o n="x"><i q="1.5">5</i><o/></o>` -/
def copyRefused : Elem := .mk (b8 "o") .none [(b8 "n", .text "x".toList)] [.mk (b8 "i") (.text "5".toList) [(b8 "q", .text "1.5".toList)] [], .mk (b8 "o") .none [] []]

def copiedKids (f : Img) (x : Int) (P : Pool) : Option (Bool × Int × List Int) :=
  match f.childcount x, Pool.copyAll demoEnv (fun _ => [0,0,0,0]) f 20 140 x P with
  | .ok n, .ok (Q, r) => (match Q.forwards 140 9 0 with | .ok l => some (r, n, l) | _ => none)
  | _, _ => none

def copiedValue (f : Img) (x : Int) (P : Pool) : Out Data := do
  let r ← Pool.copyAll demoEnv (fun _ => [0,0,0,0]) f 20 140 x P
  let l ← r.1.listAt 140 20 9
  elemValue r.1 (l.headD 0)

/-- C53 is false in general: the attribute `q` of the child `i` has a type that differs from the type of its symbol. `CopyAll` reports success
for `<o n="x"><i q="1.5">5</i><o/></o>`, but only the second of the two children is there. -/
theorem C53_missing_child_false : copiedKids (fileOf copyRefused) 204 (desk6 STRING) = some (true, 2, [232]) := by decide +kernel

/-- C53 is false in general: where the symbol has type INT32, the text "x" is copied as the number 0, without an error. -/
theorem C53_text_false : copiedValue (fileOf copySource) 204 (desk6 INT32) = .ok ⟨INT32, le32 0⟩ := by decide +kernel

end BX
