import Verif.Model.DataSize
import Verif.Spec.DataSize
import Verif.Lemmas.TreeRoom
import Verif.Props.Dict
import Verif.Lemmas.Attrs
/-
Property C89: the size of the data of a document.
-/
namespace BX
open XBT Spec

theorem dataSize_eq {P : Pool} {D : Doc} {els V fl} (k : Keeps P D els V fl) : P.dataSize = .ok (P, (P.alloc : Int) - poolHeader - symsLen (D.syms true) - symsLen (D.syms false)) := by
  have h1 := namesSize_ok k.sees.ok (k.tabs true)
  have h2 := namesSize_ok k.sees.ok (k.tabs false)
  have e1 : P.tab true = P.tags := rfl
  have e2 : P.tab false = P.params := rfl
  rw [e1] at h1
  rw [e2] at h2
  unfold Pool.dataSize
  rw [h1, Out.ok_bind]
  show (P.namesSize P.params).bind _ = _
  rw [h2]
  rfl

/-- parts of a document lie apart from each other behind the header -/
theorem parts_behind {P : Pool} {D : Doc} {els V fl} (k : Keeps P D els V fl) (l : List Part) (hn : l.Nodup) (hin : ∀ p ∈ l, ∀ i, partAt P p ≤ i → i < partAt P p + partLen D p → inPart P D p i) :
    poolHeader + (l.map (partLen D)).sum ≤ P.alloc := by
  have hh := k.sees.ok.head
  have h := nodup_nat_le (l.flatMap fun p => List.range' (partAt P p) (partLen D p)) (List.range' poolHeader (P.alloc - poolHeader)) ?_ ?_
  · rw [List.length_range', List.length_flatMap] at h
    simp only [List.length_range'] at h
    have e : (l.map fun a => partLen D a) = l.map (partLen D) := rfl
    rw [e] at h
    omega
  · refine (List.pairwise_flatMap).2 ⟨fun p _ => List.nodup_range', ?_⟩
    refine List.Pairwise.imp_of_mem ?_ hn
    rintro p q hp hq hne x hx y hy rfl
    obtain ⟨h1, h2⟩ := List.mem_range'_1.1 hx
    obtain ⟨h3, h4⟩ := List.mem_range'_1.1 hy
    exact hne (k.apart _ _ x (hin p hp x h1 h2) (hin q hq x h3 h4))
  · intro x hx
    obtain ⟨p, hp, hx⟩ := List.mem_flatMap.1 hx
    obtain ⟨h1, h2⟩ := List.mem_range'_1.1 hx
    have hi := hin p hp x h1 h2
    have hlt := k.lt hi
    refine List.mem_range'_1.2 ⟨?_, by omega⟩
    cases p with
    | elem e => have := (k.sees.range e ((k.lists.mem e).1 hi.1)).1; have := hi.2.1; omega
    | names b => have := ((k.tabs b).names hi.1).1; have := hi.2.1; omega
    | index b => have := ((k.tabs b).index hi.1).2.1; have := hi.2.1; omega

theorem aa_pad (n : Nat) : aa n = n + (4 - n % 4) % 4 := by unfold aa; omega

/-- C89: after any history of a document `getDataSize` answers, changes nothing, and the answer is at least the sum of the sizes of all elements and attributes.
Partial: it is not the sum, see `C89_empty_false` and `C89_moved_false`. -/
theorem C89_size_partial (E : Env) (maxSize : Nat) (h1 : 0x4000 ≤ maxSize) (h2 : maxSize < 2147483648) (P : Pool) (D : Doc) (h : Sess E maxSize P D) :
    ∃ n : Nat, P.dataSize = .ok (P, (n : Int)) ∧ n < P.fileSize ∧ ∀ l : List Nat, l.Nodup → (∀ e ∈ l, D.forest.Elem e) → D.bytesOf l ≤ n := by
  obtain ⟨els, V, fl, k⟩ := sess_keeps h1 h2 h
  have key : ∀ l : List Nat, l.Nodup → (∀ e ∈ l, D.forest.Elem e) → poolHeader + (symsLen (D.syms true) + (symsLen (D.syms false) + D.bytesOf l)) ≤ P.alloc := by
    intro l hn he
    have hz : ∀ b, (P.tab b).names = 0 → symsLen (D.syms b) = 0 := by
      intro b hb
      have : D.syms b = [] := by
        by_cases hs : D.syms b = []
        · exact hs
        · exact absurd hb ((k.tabs b).some hs)
      rw [this]; rfl
    have := parts_behind k (Part.names true :: Part.names false :: l.map Part.elem) ?_ ?_
    · simp only [List.map_cons, List.sum_cons, partLen, List.map_map] at this
      have e : ((l.map (partLen D ∘ Part.elem))).sum = D.bytesOf l := by
        unfold Doc.bytesOf
        congr 1
        refine List.map_congr_left fun e _ => ?_
        show 24 + aa _ = _
        rw [aa_pad]; omega
      rw [e] at this
      exact this
    · refine List.nodup_cons.2 ⟨by simp, List.nodup_cons.2 ⟨by simp, List.Pairwise.map _ (fun a b h h' => h (by cases h'; rfl)) hn⟩⟩
    · intro p hp i i1 i2
      have hnames : ∀ b, (P.tab b).names ≤ i → i < (P.tab b).names + symsLen (D.syms b) → inPart P D (.names b) i := by
        intro b j1 j2
        refine ⟨fun hb => ?_, j1, j2⟩
        have := hz b hb
        omega
      simp only [List.mem_cons, List.mem_map] at hp
      rcases hp with rfl | rfl | ⟨e, he', rfl⟩
      · exact hnames true i1 i2
      · exact hnames false i1 i2
      · exact ⟨he e he', i1, by simp only [partAt, partLen] at i2; omega⟩
  have k0 := key [] List.nodup_nil (by simp)
  refine ⟨P.alloc - poolHeader - symsLen (D.syms true) - symsLen (D.syms false), ?_, ?_, fun l hn he => ?_⟩
  · rw [dataSize_eq k]
    congr 2
    unfold Doc.bytesOf at k0
    simp only [List.map_nil, List.sum_nil] at k0
    omega
  · have := k.sees.ok.le
    have := k.sees.ok.lim
    have := k.sees.ok.head
    have : 0 < poolHeader := by decide
    omega
  · have := key l hn he
    omega

/-- C89: making an element adds at least the size of the element. -/
theorem C89_grows (E : Env) (maxSize : Nat) (h1 : 0x4000 ≤ maxSize) (h2 : maxSize < 2147483648) (P Q : Pool) (D : Doc) (h : Sess E maxSize P D) (id : Int) (hid : Is16 id) (t : XBT) (size : Nat) (b : Bool)
    (bs : List UInt8) (hl : (sizeField t 0).length + bs.length = (size2 t size).toNat) (o : Nat) (hm : P.make E id t size (tagFlag b) (sizeField t 0).length bs = .ok (Q, some o)) :
    ∃ n m : Int, P.dataSize = .ok (P, n) ∧ Q.dataSize = .ok (Q, m) ∧ n + 24 + size2 t size ≤ m := by
  obtain ⟨els, V, fl, k⟩ := sess_keeps h1 h2 h
  have sp := make_spec k.sees.ok hm
  obtain ⟨b1, b2, b3, b4, b5, -⟩ := sp.2 o rfl
  obtain ⟨kk, hk⟩ : ∃ kk, D.forest.at' (.loose kk) = [] := (sess_loose h).imp fun N hN => hN N (Nat.le_refl N)
  have hs := Sess.made h hid hl hm hk
  obtain ⟨els', V', fl', k'⟩ := sess_keeps h1 h2 hs
  refine ⟨_, _, dataSize_eq k, dataSize_eq k', ?_⟩
  have e : ∀ x, (D.plus kk o b id t (sizeField t (size2 t size - 4) ++ bs)).syms x = D.syms x := fun _ => rfl
  rw [e, e]
  omega

/-- C89: after a successful Clear the answer is four bytes for each symbol. -/
theorem C89_clear (E : Env) (maxSize : Nat) (h1 : 0x4000 ≤ maxSize) (h2 : maxSize < 2147483648) (P Q : Pool) (D : Doc) (h : Sess E maxSize P D) (hc : P.clear = .ok (Q, true)) :
    Q.dataSize = .ok (Q, 4 * ((D.syms true).length + (D.syms false).length : Nat)) := by
  obtain ⟨hs, -, -, -, -, -, ha, -⟩ := C39_clear_partial E maxSize h1 h2 P Q D h hc
  obtain ⟨els, V, fl, k⟩ := sess_keeps h1 h2 hs
  rw [dataSize_eq k, ha]
  show Out.ok (Q, _) = _
  congr 2
  show _ - _ - ((symsLen (D.syms true) : Nat) : Int) - ((symsLen (D.syms false) : Nat) : Int) = _
  omega

/-- C89 is false: in every document with symbols that is ready for use the answer is not zero, also if there is no element at all. -/
theorem C89_empty_false (E : Env) (maxSize : Nat) (h1 : 0x4000 ≤ maxSize) (h2 : maxSize < 2147483648) (P : Pool) (D : Doc) (h : Sess E maxSize P D) (b : Bool) (hr : D.ready b = true) (hs : D.syms b ≠ [])
    (n : Int) (hn : P.dataSize = .ok (P, n)) : 0 < n := by
  obtain ⟨els, V, fl, k⟩ := sess_keeps h1 h2 h
  rw [dataSize_eq k] at hn
  cases hn
  have hi := k.rdy b hr hs
  have hlen : 0 < (D.syms b).length := List.length_pos_iff.2 hs
  have hz : ∀ b, (P.tab b).names = 0 → symsLen (D.syms b) = 0 := by
    intro b hb
    have : D.syms b = [] := by
      by_cases hs : D.syms b = []
      · exact hs
      · exact absurd hb ((k.tabs b).some hs)
    rw [this]; rfl
  have := parts_behind k [.names true, .names false, .index b] (by simp) (by
    intro p hp i i1 i2
    have hnames : ∀ b, (P.tab b).names ≤ i → i < (P.tab b).names + symsLen (D.syms b) → inPart P D (.names b) i := by
      intro b j1 j2
      refine ⟨fun hb => ?_, j1, j2⟩
      have := hz b hb
      omega
    simp only [List.mem_cons, List.not_mem_nil, or_false] at hp
    rcases hp with rfl | rfl | rfl
    · exact hnames true i1 i2
    · exact hnames false i1 i2
    · exact ⟨hi, i1, i2⟩)
  simp only [List.map_cons, List.map_nil, List.sum_cons, List.sum_nil, partLen] at this
  omega

/-- C89 is false of documents whose symbols were registered after an element was made: registering moves the names, and the old ones count as data. -/
theorem C89_moved_false : (∃ D, Sess demoEnv 0x8000 clr4 D ∧ D.forest.Elem 112) ∧ clr4.dataSize = .ok (clr4, 24) ∧ clr4.register true (b8 "car") NULL = .ok (clr5, 1) ∧ ∃ n, clr5.dataSize = .ok (clr5, n) ∧ 24 < n := by
  obtain ⟨D, d1, d2, d3, d4, d5⟩ := clr_sess4
  have r5 : clr4.register true (b8 "car") NULL = .ok (clr5, 1) := poolOfReg_eq (by decide +kernel)
  have s5 := Sess.registered d1 (by decide) (by decide) (Or.inl (by rw [d2]; decide)) r5 (by decide)
  obtain ⟨els, V, fl, k⟩ := sess_keeps (by decide) (by decide) d1
  obtain ⟨els', V', fl', k'⟩ := sess_keeps (by decide) (by decide) s5
  refine ⟨⟨D, d1, d5⟩, ?_, r5, ?_⟩
  · rw [dataSize_eq k, d2, d3]; exact congrArg (fun n => Out.ok (clr4, n)) (by decide +kernel)
  · rw [dataSize_eq k']
    refine ⟨_, rfl, ?_⟩
    have e1 : ∀ l r, (D.setSyms true l r).syms true = l := fun _ _ => rfl
    have e2 : ∀ l r, (D.setSyms true l r).syms false = D.syms false := fun _ _ => rfl
    rw [e1, e2, d2, d3]
    decide +kernel

/-- a document with an element, whose size is the size of that element, and which can be cleared -/
example : ∃ D Q, Sess demoEnv 0x8000 clr4 D ∧ D.forest.Elem 112 ∧ clr4.dataSize = .ok (clr4, 24) ∧ 24 ≤ D.bytesOf [112] ∧ clr4.clear = .ok (Q, true) ∧ Q.dataSize = .ok (Q, 8) := by
  obtain ⟨D, h, h1, h2, h3, h4⟩ := clr_sess4
  obtain ⟨Q, hQ⟩ := C39_succeeds_partial demoEnv 0x8000 (by decide) (by decide) clr4 D h (by decide +kernel) (Or.inl (by rw [h1]; decide +kernel)) (by rw [h1, h2]; decide +kernel)
  refine ⟨D, Q, h, h4, C89_moved_false.2.1, ?_, hQ, ?_⟩
  · simp only [Doc.bytesOf, List.map_cons, List.map_nil, List.sum_cons, List.sum_nil]; omega
  · rw [C89_clear demoEnv 0x8000 (by decide) (by decide) clr4 Q D h hQ, h1, h2]; rfl

/-- an element is made: the size grows from 0 to 24 -/
example : ∃ D, Sess demoEnv 0x8000 clr2 D ∧ clr2.make demoEnv 0 NULL 0 (tagFlag true) (sizeField NULL 0).length [] = .ok (clr3, some 112) := by
  have r1 : (Pool.empty 0x8000).register true (b8 "person") NULL = .ok (clr1, 0) := poolOfReg_eq (by decide +kernel)
  have r2 : clr1.register false (b8 "id") INT32 = .ok (clr2, 0) := poolOfReg_eq (by decide +kernel)
  have s1 := Sess.registered (E := demoEnv) (maxSize := 0x8000) Sess.start (by decide) (by decide) (Or.inl (by decide)) r1 (by decide)
  exact ⟨_, Sess.registered s1 (by decide) (by decide) (Or.inl (by decide)) r2 (by decide), poolOf_eq (by decide +kernel)⟩

end BX
