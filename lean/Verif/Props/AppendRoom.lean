import Verif.Props.Append
import Verif.Lemmas.LogRoom
/-
Property C31: appending always succeeds while there is room.
-/
namespace BX
open XBT Spec

theorem grows_total (ops : List AppendOp) : ∀ (f : Img) (lim : Nat), (∀ op ∈ ops, (∀ s, (op.c.flt s).length = 4) ∧ TextDoc op.c.flt op.c.ptype op.e ∧ TreeOk op.c.ptype op.e ∧ 19 + need op.e ≤ op.c.limit ∧ op.c.limit ≤ lim) →
    f.size + (ops.map fun op => need op.e + 3).sum + lim < 2147483648 → ∃ g, Grows f ops g ∧ g.size ≤ f.size + (ops.map fun op => need op.e + 3).sum := by
  induction ops with
  | nil => intro f lim _ _; exact ⟨f, .nil f, by simp⟩
  | cons op ops ih =>
    intro f lim ho hs
    obtain ⟨a1, a2, a3, a4, a5⟩ := ho op (by simp)
    simp only [List.map_cons, List.sum_cons] at hs ⊢
    obtain ⟨g, g1, g2⟩ := append_total (c := op.c) a1 op.m0 f op.e a2 a3 (by omega)
    obtain ⟨k, k1, k2⟩ := ih g lim (fun o h => ho o (List.mem_cons_of_mem _ h)) (by omega)
    exact ⟨k, .cons g1 (by omega) (by omega) k1, by omega⟩

/-- C31 without assumptions on the success of calls: a document whose root ends with the marker is converted if it has room (`needDoc`, computed from the document), and then every
sequence of appends of elements that have room in the buffer of the creator (`need`, computed from the element) succeeds. The file opens, and iterating over the children of its
root gives the children of the document and then all appended elements, in order.
Partial: texts and values in the classes of C28, sizes less than two gigabytes. -/
theorem C31_total_partial (flt : CStr → List UInt8) (hflt : ∀ s, (flt s).length = 4) (filename : BStr) (hfn : NoNul filename) (mtime : Int) (filesize : Nat)
    (m0 : Mem) (name : BStr) (value : SVal) (params : List (BStr × SVal)) (cs : List Elem) (mk e : Elem)
    (he : e = .mk name value params (cs ++ [mk])) (hcs : ∀ c ∈ cs, c.name ≠ b8 "et-tecera") (hmk : mk.name = b8 "et-tecera")
    (hnames : NamesIn NoNul NoNul e) (htags : AtMost 32768 (tagOps e)) (hpars : AtMost 32768 (paramOps e)) (hdoc : TextDoc flt (docAttrType e) e)
    (hok : TreeOk (docAttrType e) e) (hroom : needDoc filename e ≤ 1024 + filesize * 4) (ops : List AppendOp)
    (hops : ∀ op ∈ ops, op.c = ⟨regAll (tagOps e), regAll (paramOps e), flt, 1024 + filesize * 4⟩ ∧ TextDoc flt op.c.ptype op.e ∧ TreeOk op.c.ptype op.e ∧ 19 + need op.e ≤ 1024 + filesize * 4 ∧
      NamesIn (fun s => ∃ o ∈ tagOps e, o.name = s) (fun s => ∃ o ∈ paramOps e, o.name = s) op.e)
    (hsz : 2 * (1024 + filesize * 4) + (ops.map fun op => need op.e + 3).sum < 2147483648) (fuel : Nat) :
    ∃ f g, makeXb flt filename mtime filesize m0 e = .ok f ∧ Grows f ops g ∧
      ∃ r x ys zs, g.initialize (fuel + 1) = .ok r ∧ r.root = some x ∧ Spec.Lists g x 0 (ys ++ zs) ∧ ReadsEach flt (docAttrType e) g r cs ys ∧ ReadsOps g r ops zs := by
  obtain ⟨f, f1, f2⟩ := C44_room_partial flt hflt filename mtime filesize m0 e hnames hpars hdoc hok hroom
  obtain ⟨g, g1, -⟩ := grows_total ops f (1024 + filesize * 4) (fun op ho => by
    obtain ⟨a1, a2, a3, a4, -⟩ := hops op ho
    exact ⟨by rw [a1]; exact hflt, by rw [show op.c.flt = flt by rw [a1]]; exact a2, a3, by rw [show op.c.limit = 1024 + filesize * 4 by rw [a1]]; exact a4, by rw [a1]; exact Nat.le_refl _⟩) (by omega)
  exact ⟨f, g, f1, g1, C31_document_partial flt hflt filename hfn mtime filesize (by omega) m0 name value params cs mk e he hcs hmk f f1 (by omega) hnames htags hpars hok ops (fun op ho => by
    obtain ⟨a1, a2, a3, a4, a5⟩ := hops op ho
    exact ⟨by rw [a1], by rw [a1], by rw [a1]; exact hflt, a3, a5⟩) g g1 fuel⟩

/-- the hypotheses are met by the log of C31 with any number of entries `second` -/
example (n : Nat) (hn : n < 1000000) : ∃ f g, exLogFile = .ok f ∧ Grows f (List.replicate n ⟨⟨regAll (tagOps exLog), regAll (paramOps exLog), fun _ => [0,0,0,0], 1424⟩, fun _ => 0, exEntry "second"⟩) g := by
  have key := C31_total_partial (fun _ => [0,0,0,0]) (fun _ => rfl) (b8 "f") (by decide) 0 100 (fun _ => 0) _ _ _ [_] _ exLog rfl (by decide +kernel) (by decide +kernel)
    (by simp only [exLog, NamesIn, NamesInAll]; decide +kernel) (atMost_length _ _ (by decide +kernel)) (atMost_length _ _ (by decide +kernel))
    (by simp only [exLog, TextDoc, TextDocAll]; decide +kernel) (by simp only [exLog, TreeOk, TreeOkAll]; decide +kernel) (by decide +kernel)
    (List.replicate n ⟨⟨regAll (tagOps exLog), regAll (paramOps exLog), fun _ => [0,0,0,0], 1424⟩, fun _ => 0, exEntry "second"⟩)
    (by
      intro op ho
      rw [List.eq_of_mem_replicate ho]
      refine ⟨rfl, ?_, ?_, by decide +kernel, ?_⟩
      · simp only [exEntry, TextDoc, TextDocAll]; decide +kernel
      · simp only [exEntry, TreeOk, TreeOkAll]; decide +kernel
      · simp only [exEntry, NamesIn, NamesInAll]; decide +kernel)
    (by
      rw [List.map_replicate, List.sum_replicate_nat, show need (exEntry "second") = 63 by decide +kernel]
      omega) 0
  obtain ⟨f, g, h1, h2, -⟩ := key
  exact ⟨f, g, h1, h2⟩

end BX
