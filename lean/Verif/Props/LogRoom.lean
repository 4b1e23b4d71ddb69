import Verif.Lemmas.LogRoom
import Verif.Props.Log
/-
Property C83: batches of elements are always written.
-/
namespace BX
open XBT Spec

/-- C83: a call of `Write` in any state of any history succeeds for any batch, whatever the file is; what it appends is at most twice as long as
the file of the document. Partial: the document is not much bigger than twice its size at the time of the conversion (`WriteCall.Valid`), an element does not have more than
32767 attributes, and the four bytes behind a digest, which are copied with it, are in the document; symbols, values and attributes as in `C64_document_partial`. -/
theorem C83_succeeds_partial (E : Env) (maxSize : Nat) (h1 : 0x4000 ≤ maxSize) (h2 : maxSize < 2147483648) (c : Ctx) (hflt : ∀ s, (c.flt s).length = 4) (syms : Bool → List Sym) (w : WriteCall)
    (v : w.Valid E maxSize c.limit syms) (f : Img) : ∃ Q g, w.P.write c w.bufs w.deep w.fuel f w.e = .ok (Q, g) ∧ g.size ≤ f.size + 2 * w.P.fileSize :=
  batch_total h1 h2 hflt v f

/-- C83 without assumptions on the success of calls and on the buffer of the creator: in any history of a document whose root has the marker `et-tecera` as its last
child, the document is converted, and then all calls of `Write`, any number of them in any states of histories with the same symbols, succeed. The file opens, and iterating
over the children of its root gives the children of the document and then the elements of all batches, in order.
Partial: as `C64_total_partial` and `C83_succeeds_partial`; sizes are less than two gigabytes. -/
theorem C83_total_partial (E : Env) (maxSize : Nat) (h1 : 0x4000 ≤ maxSize) (h2 : maxSize < 2147483648) (P : Pool) (D : Doc) (h : Sess E maxSize P D) (hr : ∀ b, D.ready b = true)
    (e : Nat) (ks : List ETree) (M : ETree) (he : D.forest.Elem e) (hroot : D.root = e) (hb : D.Below (.node e (ks ++ [M]))) (hq : D.Every D.storedElem D.storedAttr (.node e (ks ++ [M])))
    (hs : D.Small P.fileSize (.node e (ks ++ [M]))) (hM : D.id M.top = -9) (hks : ∀ k ∈ D.elemsOf ks, k.name ≠ b8 "et-tecera")
    (flt : CStr → List UInt8) (hflt : ∀ s, (flt s).length = 4) (filename : BStr) (hfn : NoNul filename) (hfl : filename.length ≤ 800 + 2 * P.fileSize) (mtime : Int) (m0 : Mem) (fuel : Nat)
    (hf : D.steps (.node e (ks ++ [M])) ≤ fuel)
    (ws : List WriteCall) (hv : ∀ w ∈ ws, w.Valid E maxSize (1024 + P.fileSize * 4) D.syms) (hsz : 2048 + P.fileSize * 8 + (ws.map fun w => 2 * w.P.fileSize).sum < 2147483648) (n : Nat) :
    ∃ f c g, P.toXb flt filename mtime m0 fuel = .ok f ∧ P.creator flt = .ok c ∧ writeAll c ws f = .ok g ∧
      ∃ r x ys zs, g.initialize (n + 1) = .ok r ∧ r.root = some x ∧ Spec.Lists g x 0 (ys ++ zs) ∧ ReadsEach flt (fun _ => UNKNOWN) g r (D.elemsOf ks) ys ∧
        ReadsEach flt (fun _ => UNKNOWN) g r (ws.flatMap fun w => w.D.elemsOf w.Ts) zs := by
  obtain ⟨f, f1, f2, -⟩ := C64_total_partial E maxSize h1 h2 P D h hr (.node e (ks ++ [M])) he hb hq hs hroot flt hflt filename hfn hfl mtime m0 fuel hf (by omega)
  have hc : ∃ c, P.creator flt = .ok c ∧ c.flt = flt ∧ c.limit = 1024 + P.fileSize * 4 := by
    obtain ⟨els, V, fl, k⟩ := sess_keeps h1 h2 h
    unfold Pool.creator
    rw [symbolCount_spec k, symbolCount_spec k, Int.toNat_natCast, Int.toNat_natCast, symbolOps_spec k (hr true) _ 0 (by omega), Out.ok_bind, symbolOps_spec k (hr false) _ 0 (by omega), Out.ok_bind]
    exact ⟨_, rfl, rfl, rfl⟩
  obtain ⟨c, c1, c2, c3⟩ := hc
  obtain ⟨g, g1, g2, g3⟩ := writeAll_total h1 h2 (c := c) (by rw [c2]; exact hflt) (syms := D.syms) ws f (by rw [c3]; exact hv) (by omega)
  exact ⟨f, c, g, f1, c1, g1, C83_log_partial E maxSize h1 h2 P D h hr e ks M he hroot hb hq hM hks flt hflt filename hfn mtime m0 fuel hf f f1 (by omega) (by omega) c c1 _ g g3 n⟩

/-- the hypotheses are met: the document and the batch of `C83_log_partial`, written twice -/
example : ∃ f c g, note3.toXb (fun _ => [0,0,0,0]) (b8 "f") 0 (fun _ => 0) 20 = .ok f ∧ note3.creator (fun _ => [0,0,0,0]) = .ok c ∧ (∃ w : WriteCall, w.P = note8 ∧ writeAll c [w, w] f = .ok g) ∧
    ∃ r x zs, g.initialize 1 = .ok r ∧ r.root = some x ∧ Spec.Lists g x 0 zs ∧ zs.length = 4 := by
  obtain ⟨D, D', a1, a2, a3, a4, a5, a6, a7, a8, a9, b1, b2, b3, b4, b5, b6, b7⟩ := note_sess
  have hn : note3.fileSize = note8.fileSize ∧ note8.fileSize < 0x1000000 := by decide +kernel
  have hz : 292 ≤ note8.fileSize := by decide +kernel
  generalize note8 = P8 at *
  generalize note3 = P3 at *
  have hv : WriteCall.Valid demoEnv 0x8000 (1024 + P3.fileSize * 4) D.syms ⟨P8, D', 188, noteBatch, fun _ _ => 0, 20, 9⟩ :=
    { sess := b1, ready := b2, syms := b3, batch := b4,
      small := by
        show D'.SmallAll P8.fileSize noteBatch
        refine ⟨⟨⟨by rw [b5]; decide, fun _ => by omega⟩, fun a ha _ => ?_, trivial⟩, ⟨⟨by rw [b6]; decide, fun _ => by omega⟩, fun a ha _ => ?_, trivial⟩, trivial⟩
        · rw [b5] at ha
          have : a = 216 := by simpa using ha
          omega
        · rw [b6] at ha; cases ha
      room := by show 16 + 2 * P8.fileSize ≤ _; omega
      deep := by show D'.stepsAll noteBatch ≤ 20; unfold noteBatch; simp only [Doc.steps, Doc.stepsAll, b5, b6]; decide
      fuel := by show noteBatch.length ≤ 9; decide }
  have hs : D.steps noteTree ≤ 20 := by unfold noteTree; simp only [Doc.steps, Doc.stepsAll, a8, a9]; decide
  have hsm : D.Small P3.fileSize noteTree := by
    refine ⟨⟨by rw [a8]; decide, fun _ => by omega⟩, fun a ha _ => ?_, ⟨⟨by rw [a9]; decide, fun _ => by omega⟩, fun a ha _ => ?_, trivial⟩, trivial⟩
    · rw [a8] at ha; cases ha
    · rw [a9] at ha; cases ha
  obtain ⟨f, c, g, c1, c2, c3, r, x, ys, zs, h1, h2, h3, h4, h5⟩ := C83_total_partial demoEnv 0x8000 (by decide) (by decide) P3 D a1 a2 140 [] (.node 164 []) a3 a6 a4 a5 hsm a7 (by simp [Doc.elemsOf]) (fun _ => [0,0,0,0])
    (fun _ => rfl) (b8 "f") (by decide) (by rw [show (b8 "f").length = 1 from rfl]; omega) 0 (fun _ => 0) 20 hs [⟨P8, D', 188, noteBatch, fun _ _ => 0, 20, 9⟩, ⟨P8, D', 188, noteBatch, fun _ _ => 0, 20, 9⟩]
    (by intro w hw; simp only [List.mem_cons, List.not_mem_nil, or_false, or_self] at hw; subst hw; exact hv) (by simp only [List.map_cons, List.map_nil, List.sum_cons, List.sum_nil]; omega) 0
  refine ⟨f, c, g, c1, c2, ⟨_, rfl, c3⟩, r, x, _, h1, h2, h3, ?_⟩
  have e1 := h4.1
  have e2 := h5.1
  simp only [List.flatMap_cons, List.flatMap_nil, b7] at e2
  simp only [Doc.elemsOf, List.length_nil] at e1
  rw [List.length_append, e1, e2]
  rfl

end BX
