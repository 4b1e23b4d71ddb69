import Verif.Props.Keys
import Verif.Props.Source
/-
C71: making the elements of a path of items of a file in a writable document.
-/
namespace BX
open XBT Spec

/-- C71, elements that are there: the path of items leads through elements with the same keys. The result is the last of them, and nothing
changes. -/
theorem C71_found (E : Env) (maxSize : Nat) (h1 : 0x4000 ≤ maxSize) (h2 : maxSize < 2147483648) (flt : CStr → List UInt8) (hflt : ∀ s, (flt s).length = 4) (isKey : Int → Bool) (f : Img)
    (hf : f.size + 64 < 2147483648) (whole : Bool) (P : Pool) (D : Doc) (h : Sess E maxSize P D) (x : Int) (xs : List Int) (t : CTree) (us : List CTree) (hx : FileShowsAll f (x :: xs) (t :: us)) (r q : Nat)
    (hb : D.Begins flt isKey t r) (hl : D.Leads flt isKey r us q) (hc : D.ClearPath flt isKey r us) (hfew : ∀ u ∈ t :: us, FewKeys isKey u.attrs) :
    ∃ N, ∀ fuel, N ≤ fuel → P.copyPath E flt isKey f x whole fuel x xs = .ok (P, some (q : Int)) := by
  unfold FileShowsAll at hx
  obtain ⟨N, hN⟩ := copyPath_begins (whole := whole) h1 h2 hflt hf h hx.1 hb (hfew t (by simp))
  obtain ⟨-, -, hre⟩ := start_elem h1 h2 h hb.start
  obtain ⟨els, V, fl, k⟩ := sess_keeps h1 h2 h
  refine ⟨N + els.length + 1, fun fuel hfu => ?_⟩
  obtain ⟨-, -, src, hp⟩ := path_prefix (E := E) (whole := whole) hflt hf k (fuel := fuel) (by omega) (rest := []) us xs x r ((k.lists.mem r).1 hre) hl (by rw [List.append_nil]; exact hc) hx.2
    fun u hu => hfew u (List.mem_cons_of_mem _ hu)
  have hp := hp []
  rw [List.append_nil] at hp
  rw [hN fuel (by omega), hp]
  rfl

/-- C71, as far as it is true: the first items of a path lead to `c`, which has no child with the keys of the next item `m`. Then the
elements of `m` and of the items after it are made below `c`, behind its other children: each has the keys of its item, the last one all of the
item (`CopyPath`) or its keys (`CopyPathOnly`). Nothing else of the document changes. The last of the new elements is returned; and a second
call returns it as well and changes nothing. -/
theorem C71_path_partial (E : Env) (hE : ∀ n, E.trunc n = true) (maxSize : Nat) (h1 : 0x4000 ≤ maxSize) (h2 : maxSize < 2147483648) (flt : CStr → List UInt8) (hflt : ∀ s, (flt s).length = 4) (isKey : Int → Bool) (f : Img)
    (hf : f.size + 64 < 2147483648) (whole : Bool) (P : Pool) (D : Doc) (h : Sess E maxSize P D) (x : Int) (xs : List Int) (t m ct : CTree) (pre post : List CTree) (hx : FileShowsAll f (x :: xs) (t :: (pre ++ m :: post)))
    (r c : Nat) (hb : D.Begins flt isKey t r) (hl : D.Leads flt isKey r pre c) (hc : D.ClearPath flt isKey r (pre ++ m :: post)) (hno : D.childOf flt isKey c m.attrs = none)
    (hch : D.chain flt isKey whole m post = some ct) (hfew : ∀ u ∈ t :: (pre ++ m :: post), FewKeys isKey u.attrs) (hst : ∀ u ∈ pre, D.takesAttrs flt (keysOf isKey u.attrs) ≠ none) (hlight : lightKids (m :: post))
    (hbig : P.alloc + kidsRoom (m :: post) + 0x6000 ≤ P.mmapSize) :
    ∃ (Q : Pool) (D' : Doc) (o l N : Nat), (∀ fuel, N ≤ fuel → P.copyPath E flt isKey f x whole fuel x xs = .ok (Q, some (l : Int)) ∧ DocShows Q fuel o ct ∧ Q.copyPath E flt isKey f x whole fuel x xs = .ok (Q, some (l : Int))) ∧
      Sess E maxSize Q D' ∧ GrewBelow c D D' ∧ D'.forest.at' (.kids c) = D.forest.at' (.kids c) ++ [o] ∧ D'.forest.at' (.attrs c) = D.forest.at' (.attrs c) ∧ ¬ D.forest.Elem o ∧
      D'.Begins flt isKey t r ∧ D'.Leads flt isKey r (pre ++ m :: post) l := by
  have hx' := hx
  unfold FileShowsAll at hx'
  obtain ⟨-, hroot, hre⟩ := start_elem h1 h2 h hb.start
  obtain ⟨N, hN⟩ := copyPath_begins (whole := whole) h1 h2 hflt hf h hx'.1 hb (hfew t (by simp))
  obtain ⟨Q, D', o, l, M, p1, p2, p3, -, p5, p6, p7, p8, -, -, p11, p12, p13, p14, p15, p16⟩ := path_added hE h1 h2 hflt hf (src := x) h hre hl hc hno hch hx'.2 (fun u hu => hfew u (List.mem_cons_of_mem _ hu)) hlight hbig
  obtain ⟨els, V, fl, k⟩ := sess_keeps h1 h2 p2
  obtain ⟨K, hK⟩ := hasTree_shows k ct o p8 p11
  have hb' := begins_kept p3 p6 p5 hroot hre hb
  obtain ⟨l1, l2⟩ := leads_kept p3 p6 p5 hno p13 p14 p15 p16 (chain_keys _ _ _ hch) pre r hre hl hc hst
  obtain ⟨M2, hM2⟩ := C71_found E maxSize h1 h2 flt hflt isKey f hf whole Q D' p2 x xs t _ hx r l hb' l1 l2 hfew
  exact ⟨Q, D', o, l, N + M + K + M2, fun fuel hfu => ⟨by rw [hN fuel (by omega)]; exact p1 fuel (by omega), hK fuel (by omega), hM2 fuel (by omega)⟩, p2, p3, p5, p6, p7, hb', l1⟩

/-- C71 in a document without a root: the elements are made, the first becomes the root, and nothing else changes. A second call returns the
same element (a root `<transaction>` is passed over by paths that begin with another tag). -/
theorem C71_root (E : Env) (hE : ∀ n, E.trunc n = true) (maxSize : Nat) (h1 : 0x4000 ≤ maxSize) (h2 : maxSize < 2147483648) (flt : CStr → List UInt8) (hflt : ∀ s, (flt s).length = 4) (isKey : Int → Bool) (f : Img)
    (hf : f.size + 64 < 2147483648) (whole : Bool) (P : Pool) (D : Doc) (h : Sess E maxSize P D) (h0 : D.root = 0) (x : Int) (xs : List Int) (t ct : CTree) (us : List CTree) (hx : FileShowsAll f (x :: xs) (t :: us))
    (hch : D.chain flt isKey whole t us = some ct) (hfew : ∀ u ∈ t :: us, FewKeys isKey u.attrs) (hlight : lightKids (t :: us)) (hbig : P.alloc + kidsRoom (t :: us) + 0x6000 ≤ P.mmapSize) :
    ∃ (Q : Pool) (D' : Doc) (o l N : Nat), (∀ fuel, N ≤ fuel → P.copyPath E flt isKey f x whole fuel x xs = .ok (Q, some (l : Int)) ∧ DocShows Q fuel o ct ∧ Q.copyPath E flt isKey f x whole fuel x xs = .ok (Q, some (l : Int))) ∧
      Sess E maxSize Q D' ∧ OnlyNew o D D' ∧ D'.root = o ∧ D'.Begins flt isKey t o ∧ D'.Leads flt isKey o us l := by
  obtain ⟨Q, D', o, l, N, p1, p2, p3, p4, p5, p6, p7, p8, p9⟩ := path_root hE h1 h2 hflt hf h h0 hch hx hfew hlight hbig
  obtain ⟨els, V, fl, k⟩ := sess_keeps h1 h2 p2
  obtain ⟨K, hK⟩ := hasTree_shows k ct o p3.new.2 p5
  have hid : D'.id o = t.id := by
    have : ct.id = t.id := by
      cases us with
      | nil =>
        unfold Doc.chain at hch
        cases whole with
        | true => rw [if_pos rfl, Option.map_eq_some_iff] at hch; obtain ⟨_, _, rfl⟩ := hch; rfl
        | false => rw [if_neg (by simp), Option.map_eq_some_iff] at hch; obtain ⟨_, _, rfl⟩ := hch; rfl
      | cons v vs =>
        unfold Doc.chain at hch
        simp only [Option.bind_eq_some_iff, Option.map_eq_some_iff] at hch
        obtain ⟨_, _, _, _, rfl⟩ := hch
        rfl
    rw [← this]
    cases ct
    unfold HasTree at p5
    exact p5.1
  have ho := k.sees.lt ((k.lists.mem o).1 p3.new.2)
  have hb : D'.Begins flt isKey t o := p7 (by
    unfold Doc.startFor
    rw [p4, if_neg (by omega), if_neg (fun hc => hc.2 (hid ▸ hc.1))])
  obtain ⟨M, hM⟩ := C71_found E maxSize h1 h2 flt hflt isKey f hf whole Q D' p2 x xs t us hx o l hb p8 p9 hfew
  exact ⟨Q, D', o, l, N + K + M, fun fuel hfu => ⟨p1 fuel (by omega), hK fuel (by omega), hM fuel (by omega)⟩, p2, p3, p4, hb, p8⟩

/-- C71 in a document whose root is an empty `<transaction>` (its tag is -10): the elements are made in it. -/
theorem C71_transaction (E : Env) (hE : ∀ n, E.trunc n = true) (maxSize : Nat) (h1 : 0x4000 ≤ maxSize) (h2 : maxSize < 2147483648) (flt : CStr → List UInt8) (hflt : ∀ s, (flt s).length = 4) (isKey : Int → Bool) (f : Img)
    (hf : f.size + 64 < 2147483648) (whole : Bool) (P : Pool) (D : Doc) (h : Sess E maxSize P D) (h0 : D.root ≠ 0) (hid : D.id D.root = -10) (hnk : D.forest.at' (.kids D.root) = []) (x : Int) (xs : List Int) (t ct : CTree)
    (us : List CTree) (htid : t.id ≠ -10) (hx : FileShowsAll f (x :: xs) (t :: us)) (hch : D.chain flt isKey whole t us = some ct) (hfew : ∀ u ∈ t :: us, FewKeys isKey u.attrs) (hlight : lightKids (t :: us))
    (hbig : P.alloc + kidsRoom (t :: us) + 0x6000 ≤ P.mmapSize) :
    ∃ (Q : Pool) (D' : Doc) (o l N : Nat), (∀ fuel, N ≤ fuel → P.copyPath E flt isKey f x whole fuel x xs = .ok (Q, some (l : Int)) ∧ DocShows Q fuel o ct ∧ Q.copyPath E flt isKey f x whole fuel x xs = .ok (Q, some (l : Int))) ∧
      Sess E maxSize Q D' ∧ GrewBelow D.root D D' ∧ D'.forest.at' (.kids D.root) = [o] ∧ D'.forest.at' (.attrs D.root) = D.forest.at' (.attrs D.root) ∧ ¬ D.forest.Elem o ∧
      D'.Begins flt isKey t o ∧ D'.Leads flt isKey o us l := by
  obtain ⟨Q, D', o, l, N, p1, p2, p3, p4, p5, p6, p7, p8, p9, p10, p11, p12⟩ := path_inside hE h1 h2 hflt hf h h0 hid hnk htid hch hx hfew hlight hbig
  obtain ⟨els, V, fl, k⟩ := sess_keeps h1 h2 p2
  obtain ⟨K, hK⟩ := hasTree_shows k ct o p7 p8
  obtain ⟨M, hM⟩ := C71_found E maxSize h1 h2 flt hflt isKey f hf whole Q D' p2 x xs t us hx o l p10 p11 p12 hfew
  exact ⟨Q, D', o, l, N + K + M, fun fuel hfu => ⟨p1 fuel (by omega), hK fuel (by omega), hM fuel (by omega)⟩, p2, p3, p4, p5, p6, p10, p11⟩

/-- C71, paths that do not fit: the first item is not the root of its file, or the element where the path would begin has another tag or other
keys. There is no result, and nothing changes. -/
theorem C71_refused (E : Env) (maxSize : Nat) (h1 : 0x4000 ≤ maxSize) (h2 : maxSize < 2147483648) (flt : CStr → List UInt8) (hflt : ∀ s, (flt s).length = 4) (isKey : Int → Bool) (f : Img)
    (hf : f.size + 64 < 2147483648) (whole : Bool) (P : Pool) (D : Doc) (h : Sess E maxSize P D) (R x : Int) (xs : List Int) (t : CTree) (hx : FileShows f x t)
    (hw : x ≠ R ∨ x = R ∧ ∃ r, D.startFor t.id = some r ∧ D.Clear flt isKey r t.attrs ∧ (D.id r ≠ t.id ∨ sameKeys flt isKey t.attrs (D.attrsOf r) = false)) :
    ∃ N, ∀ fuel, N ≤ fuel → P.copyPath E flt isKey f R whole fuel x xs = .ok (P, none) := by
  rcases hw with hw | ⟨rfl, r, hr, hcl, hw⟩
  · refine ⟨0, fun fuel _ => ?_⟩
    unfold Pool.copyPath
    rw [if_pos hw]
    rfl
  · obtain ⟨-, -, hre⟩ := start_elem h1 h2 h hr
    obtain ⟨els, V, fl, k⟩ := sess_keeps h1 h2 h
    have hrm := (k.lists.mem _).1 hre
    obtain ⟨hnm, hsa⟩ := fileShows_attrs hx
    refine ⟨(D.forest.at' (.attrs r)).length + 1, fun fuel hfu => ?_⟩
    rw [copyPath_start h1 h2 h hx hr]
    unfold Pool.pathFrom
    rw [(k.elem _ hrm).eId k.sees.size.1, Out.ok_bind, hnm, Out.ok_bind]
    by_cases hi : D.id r = t.id
    · rw [if_neg (fun hc => hc hi), equalKeys_spec hflt isKey hf k hrm hsa hcl (by omega), Out.ok_bind]
      rcases hw with hw | hw
      · exact absurd hi hw
      · rw [hw]
        rfl
    · rw [if_pos hi]
      rfl

/-! ### examples -/

/-- the attribute `n` is the key of elements -/
def keyN (n : Int) : Bool := n == 0

/-- the document of the examples with its symbols and no elements -/
def wayDoc : Doc := { Doc.empty with syms := fun b => if b then [⟨b8 "i", INT32⟩, ⟨b8 "o", NULL⟩] else [⟨b8 "n", STRING⟩, ⟨b8 "q", INT32⟩], ready := fun _ => true }

theorem way_doc : Sess demoEnv 0x8000 (desk5 STRING) wayDoc := by
  have r1 : (Pool.empty 0x8000).register true (b8 "i") INT32 = .ok (desk1, 0) := poolOfReg_eq (by decide +kernel)
  have r2 : desk1.register true (b8 "o") NULL = .ok (desk2, 1) := poolOfReg_eq (by decide +kernel)
  have r3 : desk2.register false (b8 "n") STRING = .ok (desk3 STRING, 0) := poolOfReg_eq (by decide +kernel)
  have r4 : (desk3 STRING).register false (b8 "q") INT32 = .ok (desk4 STRING, 1) := poolOfReg_eq (by decide +kernel)
  have r5 : (desk4 STRING).allRegistered demoEnv = .ok (desk5 STRING, true) := poolOfB_eq (by decide +kernel)
  have s1 := Sess.registered (E := demoEnv) (maxSize := 0x8000) Sess.start (by decide) (by decide) (Or.inl (by decide)) r1 (by decide)
  have s2 := Sess.registered s1 (by decide) (by decide) (Or.inl (by decide)) r2 (by decide)
  have s3 := Sess.registered s2 (by decide) (by decide) (Or.inl (by decide)) r3 (by decide)
  have s4 := Sess.registered s3 (by decide) (by decide) (Or.inl (by decide)) r4 (by decide)
  have s5 := Sess.allRegistered s4 r5
  have : ∀ D, Sess demoEnv 0x8000 (desk5 STRING) D → D = wayDoc → Sess demoEnv 0x8000 (desk5 STRING) wayDoc := fun D h e => e ▸ h
  refine this _ s5 ?_
  unfold wayDoc
  refine congr (congrArg (Doc.mk Doc.empty.forest Doc.empty.id Doc.empty.type Doc.empty.val Doc.empty.root) (funext fun b => ?_)) (funext fun b => ?_) <;> cases b <;> decide

/-- `<o n="x"/>`, the root -/
def way1 : Pool := poolOf ((desk6 STRING).make demoEnv 0 STRING 1 (tagFlag false) (sizeField STRING 0).length (b8 "x" ++ [0]))
def way2 : Pool := poolOf' (way1.add 140 (some 164))
def way3 : Pool := poolOf' (way2.setRoot (some 140))
/-- `<transaction/>`, the root -/
def trans1 : Pool := poolOf ((desk5 STRING).make demoEnv (-10) NULL 0 (tagFlag true) (sizeField NULL 0).length [])
def trans2 : Pool := poolOf' (trans1.setRoot (some 140))

theorem way_runs : madeAt ((desk5 STRING).make demoEnv 1 NULL 0 (tagFlag true) (sizeField NULL 0).length []) 140 = true ∧
    madeAt ((desk6 STRING).make demoEnv 0 STRING 1 (tagFlag false) (sizeField STRING 0).length (b8 "x" ++ [0])) 164 = true ∧ wasOk ((ListOp.add 140 164).run way1) = true ∧ wasOk (way2.setRoot (some 140)) = true ∧
    madeAt ((desk5 STRING).make demoEnv (-10) NULL 0 (tagFlag true) (sizeField NULL 0).length []) 140 = true ∧ wasOk (trans1.setRoot (some 140)) = true := by decide +kernel

theorem way_sess : ∃ D, Sess demoEnv 0x8000 way3 D ∧ D.root = 140 ∧ D.id 140 = 1 ∧ D.forest.at' (.kids 140) = [] ∧ D.forest.at' (.attrs 140) = [164] ∧ D.id 164 = 0 ∧ D.type 164 = STRING ∧ D.val 164 = b8 "x" ++ [0] ∧
    D.syms = wayDoc.syms ∧ D.ready = wayDoc.ready := by
  obtain ⟨r1, r2, r3, r4, -⟩ := way_runs
  replace r1 : (desk5 STRING).make demoEnv 1 NULL 0 (tagFlag true) (sizeField NULL 0).length [] = .ok (desk6 STRING, some 140) := madeAt_eq r1
  replace r2 : (desk6 STRING).make demoEnv 0 STRING 1 (tagFlag false) (sizeField STRING 0).length (b8 "x" ++ [0]) = .ok (way1, some 164) := madeAt_eq r2
  replace r3 : (ListOp.add 140 164).run way1 = .ok way2 := wasOk_eq r3
  replace r4 : way2.setRoot (some 140) = .ok way3 := wasOk_eq r4
  have s1 := Sess.made (k := 0) way_doc ⟨by decide, by decide⟩ (by decide) r1 rfl
  have s2 := Sess.made (k := 1) s1 ⟨by decide, by decide⟩ (by decide) r2 rfl
  have s3 := Sess.step s2 (Step.add (k := 1) ⟨.loose 0, by decide⟩ (by decide)) r3
  have s4 := Sess.rooted s3 (e := 140) ⟨.loose 0, by decide⟩ r4
  exact ⟨_, s4, by decide, by decide, by decide, by decide, by decide, by decide, by decide, rfl, rfl⟩

theorem trans_sess : ∃ D, Sess demoEnv 0x8000 trans2 D ∧ D.root = 140 ∧ D.id 140 = -10 ∧ D.forest.at' (.kids 140) = [] ∧ D.syms = wayDoc.syms ∧ D.ready = wayDoc.ready := by
  obtain ⟨-, -, -, -, r1, r2⟩ := way_runs
  replace r1 : (desk5 STRING).make demoEnv (-10) NULL 0 (tagFlag true) (sizeField NULL 0).length [] = .ok (trans1, some 140) := madeAt_eq r1
  replace r2 : trans1.setRoot (some 140) = .ok trans2 := wasOk_eq r2
  have s1 := Sess.made (k := 0) way_doc ⟨by decide, by decide⟩ (by decide) r1 rfl
  have s2 := Sess.rooted s1 (e := 140) ⟨.loose 0, by decide⟩ r2
  exact ⟨_, s2, by decide, by decide, by decide, rfl, rfl⟩

/-- `<i n="1.5.">5</i>` of the file -/
def wayItem : CTree := .mk 0 ⟨INT32, le32 5⟩ [(0, ⟨STRING, b8 "1.5." ++ [0]⟩)] []

theorem way_shows : FileShowsAll (fileOf copySource) [204, 244] [copyTree, wayItem] := by
  have h := fileShows_source
  have h' := h
  unfold copyTree FileShows at h'
  obtain ⟨-, -, -, -, hk⟩ := h'
  unfold FileShowsKids at hk
  obtain ⟨y, hy, -, hi⟩ := hk.1
  have : (fileOf copySource).getChildByIndex 204 0 = .ok (some 244) := by decide +kernel
  rw [show ((0 : Nat) : Int) = 0 from rfl, this] at hy
  injection hy with hy
  injection hy with hy
  subst hy
  unfold FileShowsAll FileShowsAll
  exact ⟨h, hi, by unfold FileShowsAll; trivial⟩

theorem way_chain {D : Doc} (hs : D.syms = wayDoc.syms) (hr : D.ready = wayDoc.ready) : D.chain (fun _ => [0,0,0,0]) keyN true wayItem [] = some (.mk 0 ⟨NULL, []⟩ [(0, ⟨STRING, b8 "1.5." ++ [0]⟩)] []) ∧
    D.chain (fun _ => [0,0,0,0]) keyN true copyTree [wayItem] = some (.mk 1 ⟨NULL, []⟩ [(0, ⟨STRING, b8 "x" ++ [0]⟩)] [.mk 0 ⟨NULL, []⟩ [(0, ⟨STRING, b8 "1.5." ++ [0]⟩)] []]) := by
  rw [chain_congr (D := wayDoc) hs hr, chain_congr (D := wayDoc) hs hr]
  exact ⟨rfl, rfl⟩

theorem way_few : ∀ u ∈ [copyTree, wayItem], FewKeys keyN u.attrs := by
  intro u hu
  rcases List.mem_cons.1 hu with rfl | hu
  · exact ⟨by decide, by decide⟩
  · rw [List.mem_singleton.1 hu]; exact ⟨by decide, by decide⟩

theorem way_light : lightKids [copyTree, wayItem] ∧ lightKids [wayItem] := by
  simp [copyTree, wayItem, CTree.light, lightKids, attrsRoom, CTree.attrs, b8]

/-- the hypotheses of `C71_path_partial`, and after the call those of `C71_found`, are met: `<i n="1.5.">` is made in `<o n="x">` -/
example : ∃ (Q : Pool) (o l N : Nat), ∀ fuel, N ≤ fuel → way3.copyPath demoEnv (fun _ => [0,0,0,0]) keyN (fileOf copySource) 204 true fuel 204 [244] = .ok (Q, some (l : Int)) ∧
    DocShows Q fuel o (.mk 0 ⟨NULL, []⟩ [(0, ⟨STRING, b8 "1.5." ++ [0]⟩)] []) ∧ Q.copyPath demoEnv (fun _ => [0,0,0,0]) keyN (fileOf copySource) 204 true fuel 204 [244] = .ok (Q, some (l : Int)) := by
  obtain ⟨D, h, a1, a2, a3, a4, a5, a6, a7, a8, a9⟩ := way_sess
  have hg : GoodVal STRING (b8 "x" ++ [0]) := by unfold GoodVal; decide
  have hb : D.Begins (fun _ => [0,0,0,0]) keyN copyTree 140 := by
    refine ⟨?_, a2, ?_, fun a ha hk => ?_⟩
    · unfold Doc.startFor
      rw [a1, if_neg (by decide), a2, if_neg (by decide)]
    · unfold Doc.attrsOf
      rw [a4, List.map_cons, List.map_nil, a5, a6, a7]
      decide +kernel
    · rw [a4] at ha
      rw [List.mem_singleton.1 ha, a5, a6, a7]
      exact ⟨hg, fun d hd => Or.inl (by simp [copyTree, CTree.attrs] at hd; rw [hd])⟩
  obtain ⟨Q, -, o, l, N, h, -⟩ := C71_path_partial demoEnv (fun _ => rfl) 0x8000 (by decide) (by decide) (fun _ => [0,0,0,0]) (fun _ => rfl) keyN (fileOf copySource) (by decide +kernel) true way3 D h 204 [244] copyTree wayItem _ [] []
    way_shows 140 140 hb rfl ⟨by rw [a3]; simp, fun c hc => by unfold Doc.childOf at hc; rw [a3] at hc; cases hc⟩ (by unfold Doc.childOf; rw [a3]; rfl) (way_chain a8 a9).1 way_few (by simp) way_light.2 (by decide +kernel)
  exact ⟨Q, o, l, N, h⟩

/-- the hypotheses of `C71_root` are met -/
example : ∃ (Q : Pool) (o l N : Nat), ∀ fuel, N ≤ fuel → (desk5 STRING).copyPath demoEnv (fun _ => [0,0,0,0]) keyN (fileOf copySource) 204 true fuel 204 [244] = .ok (Q, some (l : Int)) ∧
    DocShows Q fuel o (.mk 1 ⟨NULL, []⟩ [(0, ⟨STRING, b8 "x" ++ [0]⟩)] [.mk 0 ⟨NULL, []⟩ [(0, ⟨STRING, b8 "1.5." ++ [0]⟩)] []]) := by
  obtain ⟨Q, -, o, l, N, h, -⟩ := C71_root demoEnv (fun _ => rfl) 0x8000 (by decide) (by decide) (fun _ => [0,0,0,0]) (fun _ => rfl) keyN (fileOf copySource) (by decide +kernel) true (desk5 STRING) wayDoc way_doc rfl 204 [244]
    copyTree _ [wayItem] way_shows (way_chain rfl rfl).2 way_few way_light.1 (by decide +kernel)
  exact ⟨Q, o, l, N, fun fuel hf => ⟨(h fuel hf).1, (h fuel hf).2.1⟩⟩

/-- the hypotheses of `C71_transaction` are met -/
example : ∃ (Q : Pool) (o l N : Nat), ∀ fuel, N ≤ fuel → trans2.copyPath demoEnv (fun _ => [0,0,0,0]) keyN (fileOf copySource) 204 true fuel 204 [244] = .ok (Q, some (l : Int)) ∧
    DocShows Q fuel o (.mk 1 ⟨NULL, []⟩ [(0, ⟨STRING, b8 "x" ++ [0]⟩)] [.mk 0 ⟨NULL, []⟩ [(0, ⟨STRING, b8 "1.5." ++ [0]⟩)] []]) := by
  obtain ⟨D, h, a1, a2, a3, a4, a5⟩ := trans_sess
  obtain ⟨Q, -, o, l, N, h, -⟩ := C71_transaction demoEnv (fun _ => rfl) 0x8000 (by decide) (by decide) (fun _ => [0,0,0,0]) (fun _ => rfl) keyN (fileOf copySource) (by decide +kernel) true trans2 D h (by rw [a1]; decide)
    (by rw [a1]; exact a2) (by rw [a1]; exact a3) 204 [244] copyTree _ [wayItem] (by decide) way_shows (way_chain a4 a5).2 way_few way_light.1 (by decide +kernel)
  exact ⟨Q, o, l, N, fun fuel hf => ⟨(h fuel hf).1, (h fuel hf).2.1⟩⟩

/-- the hypotheses of `C71_refused` are met: the root of the document is `<o n="x">`, the path begins with `<i n="1.5.">` -/
example : ∃ N, ∀ fuel, N ≤ fuel → way3.copyPath demoEnv (fun _ => [0,0,0,0]) keyN (fileOf copySource) 244 true fuel 244 [] = .ok (way3, none) := by
  obtain ⟨D, h, a1, a2, a3, a4, a5, a6, a7, a8, a9⟩ := way_sess
  have hg : GoodVal STRING (b8 "x" ++ [0]) := by unfold GoodVal; decide
  have hx := way_shows
  unfold FileShowsAll FileShowsAll at hx
  refine C71_refused demoEnv 0x8000 (by decide) (by decide) (fun _ => [0,0,0,0]) (fun _ => rfl) keyN (fileOf copySource) (by decide +kernel) true way3 D h 244 244 [] wayItem hx.2.1 (Or.inr ⟨rfl, 140, ?_, fun a ha hk => ?_, Or.inl (by rw [a2]; decide)⟩)
  · unfold Doc.startFor
    rw [a1, if_neg (by decide), a2, if_neg (by decide)]
  · rw [a4] at ha
    rw [List.mem_singleton.1 ha, a5, a6, a7]
    exact ⟨hg, fun d hd => Or.inl (by simp [wayItem, CTree.attrs] at hd; rw [hd])⟩

/-- the tag and the value of the element that is found or made for `xs`, after one for `ys` -/
def wayEnds (isKey : Int → Bool) (P : Pool) (ys xs : List Int) : Out (Int × Data) := do
  let r ← P.copyPath demoEnv (fun _ => [0,0,0,0]) isKey (fileOf copySource) 204 true 20 204 ys
  let r ← r.1.copyPath demoEnv (fun _ => [0,0,0,0]) isKey (fileOf copySource) 204 true 20 204 xs
  match r.2 with
  | none => .fail
  | some e => do
    let id ← r.1.eId e
    let d ← elemValue r.1 e
    return (id, d)

/-- C71 is false in general: `<i n="1.5.">5</i>` of the file becomes an element without a value -/
theorem C71_value_false : (fileOf copySource).getData 244 = .ok ⟨INT32, le32 5⟩ ∧ wayEnds keyN way3 [] [244] = .ok (0, ⟨NULL, []⟩) := by decide +kernel

/-- C71 is false in general: the tags of items behind the first one are not compared. Where neither has a key, the path to `<o/>` (tag 1) ends
at `<i>` (tag 0). -/
theorem C71_tag_false : (fileOf copySource).name 280 = .ok 1 ∧ wayEnds (fun _ => false) way3 [244] [280] = .ok (0, ⟨NULL, []⟩) := by decide +kernel

end BX
