import Verif.Lemmas.Log
import Verif.Props.Source
/-
Property C83: batches of elements of a writable document are appended to the file made from it.
-/
namespace BX
open XBT Spec

theorem elemsOf_snoc (D : Doc) (M : ETree) : ∀ ks : List ETree, D.elemsOf (ks ++ [M]) = D.elemsOf ks ++ [D.elemOf M]
  | [] => by simp [Doc.elemsOf]
  | T :: ks => by simp only [List.cons_append, Doc.elemsOf, elemsOf_snoc D M ks]

/-- C83: `Write` changes nothing in the document, except that the elements of the batch are marked as written. -/
theorem C83_document (E : Env) (maxSize : Nat) (h1 : 0x4000 ≤ maxSize) (h2 : maxSize < 2147483648) (P Q : Pool) (D : Doc) (h : Sess E maxSize P D) (hr : ∀ b, D.ready b = true) (e : Nat) (Ts : List ETree) (hb : D.Batch e Ts)
    (c : Ctx) (bufs : Nat → Mem) (deep fuel : Nat) (hd : D.stepsAll Ts ≤ deep) (f g : Img) (hw : P.write c bufs deep fuel f e = .ok (Q, g)) (h16 : 16 + (g.size - f.size) ≤ c.limit) (hsz : g.size + c.limit < 2147483648) :
    Sess E maxSize Q D ∧ ∀ x, D.forest.Elem x → ∃ fl, P.eFlags x = .ok fl ∧ Q.eFlags x = .ok (if x ∈ tops Ts then fl ||| 4 else fl) := by
  obtain ⟨i1, els, V, fl, fl', k, k', i3, -⟩ := batch_spec h1 h2 h hr hb hd hw h16 hsz
  refine ⟨i1, fun x hx => ⟨fl x, k.sees.flags ((k.lists.mem x).1 hx), ?_⟩⟩
  rw [k'.sees.flags ((k.lists.mem x).1 hx), i3 x]

/-- C83: a document whose root has the marker `et-tecera` as its last child is converted; then any number of batches are written by `Write`,
each in any state of any history with the same symbols. The file opens, and iterating over the children of its root gives the children the root had when
the file was made, and then the elements of all batches in the order of the calls, each batch from its first element around its circle. Each reads as it was in the
document when it was written: name, value, attributes and children.
Partial: as `C64_document_partial`, and the batches do not fill the buffer of the creator. -/
theorem C83_log_partial (E : Env) (maxSize : Nat) (h1 : 0x4000 ≤ maxSize) (h2 : maxSize < 2147483648) (P : Pool) (D : Doc) (h : Sess E maxSize P D) (hr : ∀ b, D.ready b = true)
    (e : Nat) (ks : List ETree) (M : ETree) (he : D.forest.Elem e) (hroot : D.root = e) (hb : D.Below (.node e (ks ++ [M]))) (hq : D.Every D.storedElem D.storedAttr (.node e (ks ++ [M])))
    (hM : D.id M.top = -9) (hks : ∀ k ∈ D.elemsOf ks, k.name ≠ b8 "et-tecera")
    (flt : CStr → List UInt8) (hflt : ∀ s, (flt s).length = 4) (filename : BStr) (hfn : NoNul filename) (mtime : Int) (m0 : Mem) (fuel : Nat) (hf : D.steps (.node e (ks ++ [M])) ≤ fuel) (f : Img)
    (hx : P.toXb flt filename mtime m0 fuel = .ok f) (hsz : 1024 + P.fileSize * 4 < 2147483648) (hroom : f.size < 1024 + P.fileSize * 4)
    (c : Ctx) (hc : P.creator flt = .ok c) (es : List Elem) (g : Img) (hg : Batches E maxSize c D.syms f es g) (n : Nat) :
    ∃ r x ys zs, g.initialize (n + 1) = .ok r ∧ r.root = some x ∧ Spec.Lists g x 0 (ys ++ zs) ∧ ReadsEach flt (fun _ => UNKNOWN) g r (D.elemsOf ks) ys ∧ ReadsEach flt (fun _ => UNKNOWN) g r es zs := by
  obtain ⟨els, V, fl, k⟩ := sess_keeps h1 h2 h
  have he' := (k.lists.mem _).1 he
  unfold Pool.creator at hc
  rw [symbolCount_spec k, symbolCount_spec k, Int.toNat_natCast, Int.toNat_natCast, symbolOps_spec k (hr true) _ 0 (by omega), Out.ok_bind, symbolOps_spec k (hr false) _ 0 (by omega), Out.ok_bind, List.drop_zero, List.drop_zero] at hc
  cases hc
  unfold Pool.toXb at hx
  split at hx
  · simp at hx
  · rw [symbolCount_spec k, symbolCount_spec k, Int.toNat_natCast, Int.toNat_natCast, symbolOps_spec k (hr true) _ 0 (by omega), Out.ok_bind, symbolOps_spec k (hr false) _ 0 (by omega), Out.ok_bind,
      k.root, hroot, show ((e : Nat) : Int) = ((ETree.node e (ks ++ [M])).top : Nat) from rfl, source_spec k hr _ fuel hb he' hq hf, Out.ok_bind, List.drop_zero, List.drop_zero] at hx
    have hgood : ∀ b, ∀ op ∈ docOps (D.syms b), NoNul op.name := by
      intro b op hop
      obtain ⟨s, hs, hn⟩ := docOps_mem hop
      rw [hn]; exact ((k.tabs b).good s hs).2
    have hmost : ∀ b, AtMost 32768 (docOps (D.syms b)) := by
      intro b
      apply atMost_length
      have := (k.tabs b).few
      have h3 := List.length_filter_le (fun s : Sym => decide (s.type ≠ UNKNOWN)) (D.syms b)
      unfold docOps
      rw [List.length_map]; omega
    obtain ⟨r, x, pt, g1, g2, g3, -, ⟨L, g5, g6⟩, g7, g8⟩ := makeXbWith_facts flt hflt _ _ filename hfn mtime P.fileSize hsz m0 _ f hx hroom (hgood true) (hgood false) (hmost true) (hmost false)
      (srcElem_names (fun s hs hu => Or.inr (mem_docOps hs hu)) (Or.inl rfl) (fun s hs hu => mem_docOps hs hu) _ hq) (fun pt => srcElem_ok k pt _ hb he' hq)
    have g3 := reads_src (pt' := fun _ => UNKNOWN) k _ x hb he' hq g3
    unfold Doc.elemOf at g3
    rw [elemsOf_snoc] at g3
    have hmk : (D.elemOf M).name = b8 "et-tecera" := by
      obtain ⟨m, ms⟩ := M
      unfold Doc.elemOf
      show (D.nameOf true (D.id m)).getD [] = _
      rw [show D.id m = -9 from hM]; rfl
    obtain ⟨ys, m1, m2, m3⟩ := Reads.marked g3 hks hmk
    obtain ⟨ops, o1, o2, o3⟩ := batches_spec h1 h2 hg hflt (f0 := f) (r := r) (fun s hs hu => g7 _ (Or.inr (mem_docOps hs hu))) (g7 _ (Or.inl rfl)) (fun s hs hu => g8 _ (mem_docOps hs hu))
    have hs4 : aa f.size = f.size := by rw [← g6]; exact aa_of_mod (aa_mod _)
    obtain ⟨zs, z1, z2⟩ := C31_appended_partial f g r x L ys ops m1 g5 (by rw [aaI_cast, g6, hs4]) (by omega) o2 o1
    have hx := (o1.ext o2).1
    exact ⟨r, x, ys, zs, hx.initialize _ _ (g1 n), g2, z1, ⟨m2, fun i hi hi' => hx.reads _ _ (m3 i hi hi')⟩, o3 _ _ _ z2⟩

/-! ### The document `<o><et-tecera/></o>`, then the batch `<i q="7">5</i><i>6</i>` -/

def note1 : Pool := poolOf ((desk6 INT32).make demoEnv (-9) NULL 0 (tagFlag true) (sizeField NULL 0).length [])
def note2 : Pool := poolOf' (note1.add 140 (some 164))
def note3 : Pool := poolOf' (note2.setRoot (some 140))
def note4 : Pool := poolOf (note3.make demoEnv 0 INT32 0 (tagFlag true) (sizeField INT32 0).length (le32 5))
def note5 : Pool := poolOf (note4.make demoEnv 1 INT32 0 (tagFlag false) (sizeField INT32 0).length (le32 7))
def note6 : Pool := poolOf' (note5.add 188 (some 216))
def note7 : Pool := poolOf (note6.make demoEnv 0 INT32 0 (tagFlag true) (sizeField INT32 0).length (le32 6))
def note8 : Pool := poolOf' (note7.join 188 244)

def noteTree : ETree := .node 140 [.node 164 []]
def noteBatch : List ETree := [.node 188 [], .node 244 []]

theorem note_runs : madeAt ((desk5 INT32).make demoEnv 1 NULL 0 (tagFlag true) (sizeField NULL 0).length []) 140 = true ∧
    madeAt ((desk6 INT32).make demoEnv (-9) NULL 0 (tagFlag true) (sizeField NULL 0).length []) 164 = true ∧ wasOk ((ListOp.add 140 164).run note1) = true ∧ wasOk (note2.setRoot (some 140)) = true ∧
    madeAt (note3.make demoEnv 0 INT32 0 (tagFlag true) (sizeField INT32 0).length (le32 5)) 188 = true ∧
    madeAt (note4.make demoEnv 1 INT32 0 (tagFlag false) (sizeField INT32 0).length (le32 7)) 216 = true ∧ wasOk ((ListOp.add 188 216).run note5) = true ∧
    madeAt (note6.make demoEnv 0 INT32 0 (tagFlag true) (sizeField INT32 0).length (le32 6)) 244 = true ∧ wasOk ((ListOp.join 188 244).run note7) = true := by decide +kernel

set_option maxHeartbeats 4000000 in
theorem note_sess : ∃ D D', Sess demoEnv 0x8000 note3 D ∧ (∀ b, D.ready b = true) ∧ D.forest.Elem 140 ∧ D.Below noteTree ∧ D.Every D.storedElem D.storedAttr noteTree ∧ D.root = 140 ∧ D.id 164 = -9 ∧
    D.forest.at' (.attrs 140) = [] ∧ D.forest.at' (.attrs 164) = [] ∧
    Sess demoEnv 0x8000 note8 D' ∧ (∀ b, D'.ready b = true) ∧ D'.syms = D.syms ∧ D'.Batch 188 noteBatch ∧ D'.forest.at' (.attrs 188) = [216] ∧ D'.forest.at' (.attrs 244) = [] ∧
    D'.elemsOf noteBatch = [.mk (b8 "i") (.bin INT32 (le32 5)) [(b8 "q", .bin INT32 (le32 7))] [], .mk (b8 "i") (.bin INT32 (le32 6)) [] []] := by
  obtain ⟨r6, r7, r8, r9, r10, r11, r12, r13, r14⟩ := note_runs
  replace r6 : (desk5 INT32).make demoEnv 1 NULL 0 (tagFlag true) (sizeField NULL 0).length [] = .ok (desk6 INT32, some 140) := madeAt_eq r6
  replace r7 : (desk6 INT32).make demoEnv (-9) NULL 0 (tagFlag true) (sizeField NULL 0).length [] = .ok (note1, some 164) := madeAt_eq r7
  replace r8 : (ListOp.add 140 164).run note1 = .ok note2 := wasOk_eq r8
  replace r9 : note2.setRoot (some 140) = .ok note3 := wasOk_eq r9
  replace r10 : note3.make demoEnv 0 INT32 0 (tagFlag true) (sizeField INT32 0).length (le32 5) = .ok (note4, some 188) := madeAt_eq r10
  replace r11 : note4.make demoEnv 1 INT32 0 (tagFlag false) (sizeField INT32 0).length (le32 7) = .ok (note5, some 216) := madeAt_eq r11
  replace r12 : (ListOp.add 188 216).run note5 = .ok note6 := wasOk_eq r12
  replace r13 : note6.make demoEnv 0 INT32 0 (tagFlag true) (sizeField INT32 0).length (le32 6) = .ok (note7, some 244) := madeAt_eq r13
  replace r14 : (ListOp.join 188 244).run note7 = .ok note8 := wasOk_eq r14
  have s6 := Sess.made (k := 0) desk_doc ⟨by decide, by decide⟩ (by decide) r6 rfl
  have s7 := Sess.made (k := 1) s6 ⟨by decide, by decide⟩ (by decide) r7 rfl
  have s8 := Sess.step s7 (Step.add (k := 1) ⟨.loose 0, by decide⟩ (by decide)) r8
  have s9 := Sess.rooted s8 (e := 140) ⟨.loose 0, by decide⟩ r9
  have s10 := Sess.made (k := 1) s9 ⟨by decide, by decide⟩ (by decide) r10 (by decide)
  have s11 := Sess.made (k := 2) s10 ⟨by decide, by decide⟩ (by decide) r11 (by decide)
  have s12 := Sess.step s11 (Step.add (k := 2) ⟨.loose 1, by decide⟩ (by decide)) r12
  have s13 := Sess.made (k := 2) s12 ⟨by decide, by decide⟩ (by decide) r13 (by decide)
  have s14 := Sess.step s13 (Step.join (j := 1) (k := 2) (by decide) (by decide) (by decide) (by decide)) r14
  have g5 : GoodVal INT32 (le32 5) := rfl
  have g6 : GoodVal INT32 (le32 6) := rfl
  have g7 : GoodVal INT32 (le32 7) := rfl
  have g0 : GoodVal NULL [] := rfl
  refine ⟨_, _, s9, fun b => by cases b <;> decide, ⟨.loose 0, by decide⟩, ⟨by decide, ⟨by decide, trivial⟩, trivial⟩,
    ⟨⟨by decide, Or.inl ⟨by decide, ⟨b8 "o", NULL⟩, by decide, by decide⟩, g0, by decide⟩, fun a ha => absurd (show a ∈ [] from ha) (by simp),
      ⟨⟨by decide, Or.inr ⟨by decide, by decide⟩, g0, by decide⟩, fun a ha => absurd (show a ∈ [] from ha) (by simp), trivial⟩, trivial⟩, by decide, by decide, by decide, by decide,
    s14, fun b => by cases b <;> decide, rfl, ⟨⟨.loose 1, by decide, by decide⟩, ⟨⟨by decide, trivial⟩, ⟨by decide, trivial⟩, trivial⟩, ?_⟩, by decide, by decide, rfl⟩
  refine ⟨⟨⟨by decide, Or.inl ⟨by decide, ⟨b8 "i", INT32⟩, by decide, by decide⟩, g5, by decide⟩, fun a ha => ?_, trivial⟩,
    ⟨⟨by decide, Or.inl ⟨by decide, ⟨b8 "i", INT32⟩, by decide, by decide⟩, g6, by decide⟩, fun a ha => absurd (show a ∈ [] from ha) (by simp), trivial⟩, trivial⟩
  have : a = 216 := by simpa using (show a ∈ [216] from ha)
  subst this
  exact ⟨⟨by decide, ⟨b8 "q", INT32⟩, by decide, by decide⟩, g7, by decide, by decide⟩

def noteFile : Out Img := note3.toXb (fun _ => [0,0,0,0]) (b8 "f") 0 (fun _ => 0) 20

/-- a batch of a document is written to a file -/
def writeTo (P0 P : Pool) (f : Out Img) (e : Int) : Out (Pool × Img) := do
  let f ← f
  let c ← P0.creator (fun _ => [0,0,0,0])
  P.write c (fun _ _ => 0) 20 9 f e

def wroteTo (r : Out (Pool × Img)) (n : Nat) : Bool := match r with | .ok (_, f) => f.size == n | _ => false

theorem note_facts : fileOk noteFile 240 = true ∧ wroteTo (writeTo note3 note8 noteFile 188) 288 = true ∧ (240 < 1024 + note3.fileSize * 4 ∧ 16 + (288 - 240) ≤ 1024 + note3.fileSize * 4) ∧
    288 + (1024 + note3.fileSize * 4) < 2147483648 := by decide +kernel

theorem note_file : ∃ f c Q g, note3.toXb (fun _ => [0,0,0,0]) (b8 "f") 0 (fun _ => 0) 20 = .ok f ∧ note3.creator (fun _ => [0,0,0,0]) = .ok c ∧ note8.write c (fun _ _ => 0) 20 9 f (188 : Nat) = .ok (Q, g) ∧
    f.size = 240 ∧ g.size = 288 ∧ c.limit = 1024 + note3.fileSize * 4 := by
  obtain ⟨h1, h2, -, -⟩ := note_facts
  obtain ⟨f, hf, hz⟩ := fileOk_ok h1
  have hw : ∃ Q g, writeTo note3 note8 noteFile 188 = .ok (Q, g) ∧ g.size = 288 := by
    match hr : writeTo note3 note8 noteFile 188, h2 with
    | .ok (Q, g), h2 => exact ⟨Q, g, rfl, by simpa [wroteTo] using h2⟩
  obtain ⟨Q, g, hw, hg⟩ := hw
  unfold writeTo at hw
  rw [hf, Out.ok_bind] at hw
  obtain ⟨c, hc, hw⟩ := Out.bind_eq_ok hw
  refine ⟨f, c, Q, g, hf, hc, hw, hz, hg, ?_⟩
  unfold Pool.creator at hc
  obtain ⟨ts, -, hc⟩ := Out.bind_eq_ok hc
  obtain ⟨ps, -, hc⟩ := Out.bind_eq_ok hc
  cases hc
  rfl

/-- the hypotheses of the theorems of C83 are met -/
example : ∃ g r x zs, g.initialize 1 = .ok r ∧ r.root = some x ∧ Spec.Lists g x 0 zs ∧
    ReadsEach (fun _ => [0,0,0,0]) (fun _ => UNKNOWN) g r [.mk (b8 "i") (.bin INT32 (le32 5)) [(b8 "q", .bin INT32 (le32 7))] [], .mk (b8 "i") (.bin INT32 (le32 6)) [] []] zs := by
  obtain ⟨D, D', a1, a2, a3, a4, a5, a6, a7, a8, a9, b1, b2, b3, b4, b5, b6, b7⟩ := note_sess
  obtain ⟨f, c, Q, g, c1, c2, c3, c4, c5, c6⟩ := note_file
  obtain ⟨-, -, ⟨n1, n2⟩, n3⟩ := note_facts
  have hs : D.steps noteTree ≤ 20 := by unfold noteTree; simp only [Doc.steps, Doc.stepsAll, a8, a9]; decide
  have hs' : D'.stepsAll noteBatch ≤ 20 := by unfold noteBatch; simp only [Doc.steps, Doc.stepsAll, b5, b6]; decide
  have hB : Batches demoEnv 0x8000 c D.syms f (D'.elemsOf noteBatch ++ []) g := .write b1 b2 b3 b4 hs' c3 (by rw [c4, c5, c6]; exact n2) (by rw [c5, c6]; exact n3) (.none g)
  obtain ⟨r, x, ys, zs, h1, h2, h3, h4, h5⟩ := C83_log_partial demoEnv 0x8000 (by decide) (by decide) note3 D a1 a2 140 [] (.node 164 []) a3 a6 a4 a5 a7 (by simp [Doc.elemsOf]) (fun _ => [0,0,0,0]) (fun _ => rfl) (b8 "f")
    (by decide) 0 (fun _ => 0) 20 hs f c1 (by omega) (by rw [c4]; exact n1) c c2 _ g hB 0
  have : ys = [] := List.eq_nil_of_length_eq_zero h4.1
  subst this
  rw [List.append_nil, b7] at h5
  exact ⟨g, r, x, zs, h1, h2, h3, h5⟩

/-- the hypotheses of `C83_document` are met -/
example : ∃ D c Q f g, note8.write c (fun _ _ => 0) 20 9 f (188 : Nat) = .ok (Q, g) ∧ Sess demoEnv 0x8000 Q D ∧ Q.eFlags (188 : Nat) = .ok 5 ∧ Q.eFlags (216 : Nat) = .ok 0 := by
  obtain ⟨D, D', -, -, -, -, -, -, -, -, -, b1, b2, b3, b4, b5, b6, b7⟩ := note_sess
  obtain ⟨f, c, Q, g, c1, c2, c3, c4, c5, c6⟩ := note_file
  obtain ⟨-, -, ⟨n1, n2⟩, n3⟩ := note_facts
  have hs' : D'.stepsAll noteBatch ≤ 20 := by unfold noteBatch; simp only [Doc.steps, Doc.stepsAll, b5, b6]; decide
  obtain ⟨h1, h2⟩ := C83_document demoEnv 0x8000 (by decide) (by decide) note8 Q D' b1 b2 188 noteBatch b4 c (fun _ _ => 0) 20 9 hs' f g c3 (by rw [c4, c5, c6]; exact n2) (by rw [c5, c6]; exact n3)
  have hfl : note8.eFlags (188 : Nat) = .ok 1 ∧ note8.eFlags (216 : Nat) = .ok 0 := by decide +kernel
  obtain ⟨q, q1, q2⟩ := b4.round
  obtain ⟨x, x1, x2⟩ := h2 188 ⟨q, q1⟩
  obtain ⟨y, y1, y2⟩ := h2 216 ⟨.attrs 188, by rw [b5]; simp⟩
  rw [hfl.1] at x1; cases x1
  rw [hfl.2] at y1; cases y1
  exact ⟨D', c, Q, f, g, c3, h1, x2, y2⟩

/-! ### Where C83 is false: a symbol registered after the file was made -/

def noteLate1 : Pool := poolOfReg (note3.register true (b8 "p") INT32)
def noteLate2 : Pool := poolOfB (noteLate1.allRegistered demoEnv)
def noteLateAt : Int := match noteLate2.make demoEnv 2 INT32 0 (tagFlag true) (sizeField INT32 0).length (le32 5) with | .ok (_, some o) => o | _ => 0
def noteLate3 : Pool := poolOf (noteLate2.make demoEnv 2 INT32 0 (tagFlag true) (sizeField INT32 0).length (le32 5))

/-- the name of the first child of the root of a file, as its reader shows it -/
def firstName (f : Out (Pool × Img)) : Out BStr := do
  let f ← f
  let r ← f.2.initialize 5
  match r.root with
  | none => .fail
  | some x => do
    let (y, _) ← f.2.getNextChild x 0
    match y with
    | none => .fail
    | some y => do
      let n ← f.2.name y
      f.2.getSymbol r.tags n

/-- C83 is false in general: an element whose symbol was registered after the file was made is written without its name. It is called `p`
in the document and `NULL` in the file; `Write` reports success. -/
theorem C83_late_false : noteLate3.nodeName noteLateAt = .ok (some (b8 "p")) ∧ wroteTo (writeTo note3 noteLate3 noteFile noteLateAt) 260 = true ∧ firstName (writeTo note3 noteLate3 noteFile noteLateAt) = .ok (b8 "NULL") := by decide +kernel

end BX
