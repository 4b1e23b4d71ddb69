import Verif.Lemmas.SymStore
/-
Properties C26 (lookup in a loaded table), C27 (tables survive storing), C45 (reserved names).
-/
namespace BX
open XBT Spec

/-- lookup in a readable sorted table, as one equation -/
theorem getID_eq (f : Img) (t : RTab) (names : List BStr) (hc : t.count = names.length)
    (hread : ∀ i (hi : i < names.length), f.getSymbol t i = .ok names[i])
    (hinc : Increasing names) (hnul : ∀ x ∈ names, NoNul x) (s : BStr) (hs : NoNul s) :
    (∃ i : Nat, f.getID t s = .ok (i : Int) ∧ names[i]? = some s) ∨ (f.getID t s = .ok (-1) ∧ s ∉ names) := by
  have hb : f.getID t s = match bsearch (fun M => strcmpB s (names.getD M [])) 0 names.length with
      | .hit M => .ok (M : Int) | .miss _ => .ok (-1) := by
    unfold Img.getID
    rw [hc, Int.toNat_natCast]
    apply bsearchO_eq
    intro M hM
    rw [hread M hM, List.getD_eq_getElem?_getD, List.getElem?_eq_getElem hM]
    rfl
  have hsp := search_names names hinc hnul s hs
  rw [hb]
  cases hbs : bsearch (fun M => strcmpB s (names.getD M [])) 0 names.length with
  | hit M => rw [hbs] at hsp; exact Or.inl ⟨M, rfl, hsp⟩
  | miss P =>
    rw [hbs] at hsp
    obtain ⟨-, h2, h3⟩ := hsp
    refine Or.inr ⟨rfl, ?_⟩
    intro hm
    rw [← List.take_append_drop P names, List.mem_append] at hm
    rcases hm with hm | hm
    · exact bytesLt_irrefl _ (h2 s hm)
    · exact bytesLt_irrefl _ (h3 s hm)

/-- C26: in a loaded table whose readable names are strictly increasing, looking a name up returns `i` exactly when the `i`-th
name is that name, and -1 exactly when it is none of them; it never reads outside of the file. -/
theorem C26_getID (f : Img) (t : RTab) (names : List BStr) (hc : t.count = names.length)
    (hread : ∀ i (hi : i < names.length), f.getSymbol t i = .ok names[i])
    (hinc : names.Pairwise BytesLt) (hnul : ∀ x ∈ names, NoNul x) (s : BStr) (hs : NoNul s) :
    (∀ i : Nat, f.getID t s = .ok (i : Int) ↔ names[i]? = some s) ∧ (f.getID t s = .ok (-1) ↔ s ∉ names) := by
  rcases getID_eq f t names hc hread hinc hnul s hs with ⟨k, h1, h2⟩ | ⟨h1, h2⟩
  · rw [h1]
    refine ⟨fun i => ⟨?_, ?_⟩, ⟨?_, ?_⟩⟩
    · intro h; have : k = i := by have := Out.ok.inj h; omega
      subst this; exact h2
    · intro h; rw [Increasing.inj hinc h2 h]
    · intro h; have := Out.ok.inj h; omega
    · intro h; exact absurd (List.mem_of_getElem? h2) h
  · rw [h1]
    refine ⟨fun i => ⟨?_, ?_⟩, ⟨fun _ => h2, fun _ => rfl⟩⟩
    · intro h; have := Out.ok.inj h; omega
    · intro h; exact absurd (List.mem_of_getElem? h) h2

/-- C27: a table of the creator (sorted, at most 32768 names without NUL, see C25) stored by `WriteChildSymbols` anywhere in a
buffer below 2 GB is accepted by `Load` in every file containing the written bytes; the loaded table has as many symbols, gives
back the registered name and type for every id, and the id for every name. -/
theorem C27_symbols (limit : Nat) (tag : Int) (t : SymTab) (ht : t.Good) (m : Mem) (wp : Nat) (m' : Mem) (wp' x : Nat)
    (hw : writeSymbols limit tag t m wp = .ok (m', wp', x))
    (f : Img) (hf : f.size < 2147483648) (hin : wp' ≤ f.size) (hag : ∀ a, x ≤ a → a < wp' → f.mem a = m' a) :
    ∃ r, f.load x = .ok r ∧ r.count = t.length ∧
      (∀ i (hi : i < t.length), f.getSymbol r i = .ok t[i].1 ∧ f.getType r i = .ok t[i].2.code) ∧
      (∀ s, NoNul s → (∀ i : Nat, f.getID r s = .ok (i : Int) ↔ t[i]?.map Prod.fst = some s)) := by
  obtain ⟨stop, hx, hwp, h36, -, -, hall⟩ := writeSymbols_spec _ _ _ _ _ _ _ _ hw
  have hge := aa_ge stop
  have hs := hall f hf (by omega) (fun a h1 h2 => hag a h1 (by omega))
  have hnn : ∀ e ∈ t, NoNul e.1 := fun e he => ht.nonul _ (List.mem_map_of_mem he)
  have hsym : ∀ i (hi : i < t.length), f.getSymbol (rtab x t) i = .ok t[i].1 := by
    intro i hi
    unfold rtab; rw [if_neg (by omega)]
    exact hs.st.getSymbol (by omega) hnn _ i hi
  refine ⟨rtab x t, hs.load ht.max hnn, rtab_count x t, ?_, ?_⟩
  · intro i hi
    refine ⟨hsym i hi, ?_⟩
    unfold rtab; rw [if_neg (by omega)]
    exact hs.st.getType i hi
  · intro s hns
    have := (C26_getID f (rtab x t) t.names (by rw [rtab_count]; simp [SymTab.names])
      (fun i hi => by
        have hi' : i < t.length := by simpa [SymTab.names] using hi
        rw [hsym i hi']; simp [SymTab.names]) ht.inc ht.nonul s hns).1
    intro i
    rw [this i, SymTab.names, List.getElem?_map]

/-- storing succeeds whenever there is room: 40 bytes, 6 per symbol and the names -/
theorem writeSyms_total (limit x : Nat) (t : SymTab) (ra ta : Nat) (m : Mem) (wp : Nat)
    (h1 : ra + 4 * t.length ≤ limit) (h2 : ta + t.length ≤ limit) (h3 : wp + (t.map fun e => e.1.length + 1).sum ≤ limit) :
    ∃ m', writeSyms limit x t ra ta m wp = .ok (m', wp + (t.map fun e => e.1.length + 1).sum) := by
  induction t generalizing ra ta m wp with
  | nil => exact ⟨m, rfl⟩
  | cons e es ih =>
    simp only [List.length_cons, List.map_cons, List.sum_cons] at h1 h2 h3
    unfold writeSyms
    rw [put, if_pos (by lens; omega)]
    simp only [Out.ok_bind]
    rw [put, if_pos (by lens; omega)]
    simp only [Out.ok_bind]
    rw [put, if_pos (by lens; omega)]
    simp only [Out.ok_bind]
    obtain ⟨m', hm⟩ := ih (ra + 4) (ta + 1) _ (wp + e.1.length + 1) (by omega) (by omega) (by omega)
    refine ⟨m', ?_⟩
    rw [hm, List.map_cons, List.sum_cons]
    congr 2; omega

/-- C27: and storing succeeds whenever the buffer has 40 bytes, 5 per symbol, and the names with their terminators left. -/
theorem C27_stored (limit : Nat) (tag : Int) (t : SymTab) (m : Mem) (wp : Nat)
    (h : wp + 40 + 5 * t.length + (t.map fun e => e.1.length + 1).sum ≤ limit) :
    ∃ m' wp' x, writeSymbols limit tag t m wp = .ok (m', wp', x) ∧ wp' ≤ wp + 44 + 5 * t.length + (t.map fun e => e.1.length + 1).sum := by
  have hx := aa_lt wp
  have hm := aa_mod wp
  have hsa : aa (aa wp + 29) = aa wp + 32 := by unfold aa; omega
  unfold writeSymbols putDesc
  simp only [hsa]
  generalize aa wp = x at *
  simp only [put]
  rw [if_pos (by lens; omega)]
  simp only [Out.ok_bind]
  rw [if_pos (by lens; omega)]
  simp only [Out.ok_bind]
  rw [if_pos (by lens; omega)]
  simp only [Out.ok_bind]
  rw [if_pos (by lens; omega)]
  simp only [Out.ok_bind]
  rw [if_pos (by lens; omega)]
  simp only [Out.ok_bind]
  rw [if_pos (by lens; omega)]
  simp only [Out.ok_bind]
  rw [if_pos (by lens; omega)]
  simp only [Out.ok_bind]
  rw [if_pos (by lens; omega)]
  simp only [Out.ok_bind]
  obtain ⟨m', he⟩ := writeSyms_total limit x t (x + 32 + 4) (x + 32 + 4 + 4 * t.length) (memPut (memPut (memPut (memPut (memPut (memPut (memPut (memPut m x (headBytes tag 2 0)) (x + 12) (leN 2 (toU 16 (-5)))) (x + 12 + 2) [INT32.code])
          (x + 12 + 4) (le32 t.length)) (x + 20) (leN 2 (toU 16 (-7)))) (x + 20 + 2) [INT32.code]) (x + 20 + 4) (le32 t.length)) (x + 28) [BLOB.code])
    (x + 32 + 4 + 5 * t.length) (by omega) (by omega) (by omega)
  rw [he]
  simp only [Out.ok_bind]
  rw [if_pos (by lens; omega)]
  simp only [Out.ok_bind]
  rw [if_pos (by lens; omega)]
  refine ⟨_, _, _, rfl, ?_⟩
  have := aa_lt (x + 32 + 4 + 5 * t.length + (t.map fun e => e.1.length + 1).sum)
  omega

/-- instance: a table made by registrations, stored and loaded -/
example : ∃ t : SymTab, t = regAll [.text (b8 "beta") (some "5".toList), .text (b8 "alpha") none] ∧ t.length = 2 ∧ t.Good ∧
    ∃ m' wp' x, writeSymbols 1000 (-3) t (fun _ => 7) 78 = .ok (m', wp', x) ∧ (Img.mk m' 500).load x = .ok ⟨80, 2, some 116, 2⟩ ∧
    (Img.mk m' 500).getID ⟨80, 2, some 116, 2⟩ (b8 "beta") = .ok 1 := by
  refine ⟨_, rfl, by decide +kernel, regAll_good _ (by decide), ?_⟩
  obtain ⟨m', wp', x, h, -⟩ := C27_stored 1000 (-3) (regAll [.text (b8 "beta") (some "5".toList), .text (b8 "alpha") none]) (fun _ => 7) 78 (by decide +kernel)
  refine ⟨m', wp', x, h, ?_⟩
  have hall : (do let r ← writeSymbols 1000 (-3) (regAll [.text (b8 "beta") (some "5".toList), .text (b8 "alpha") none]) (fun _ => 7) 78
                  let l ← (Img.mk r.1 500).load r.2.2
                  let i ← (Img.mk r.1 500).getID ⟨80, 2, some 116, 2⟩ (b8 "beta")
                  return (l, i)) = .ok (⟨80, 2, some 116, 2⟩, 1) := by decide +kernel
  rw [h] at hall
  simp only [Out.ok_bind] at hall
  obtain ⟨l, h1, hall⟩ := Out.bind_eq_ok hall
  obtain ⟨i, h2, hall⟩ := Out.bind_eq_ok hall
  simp only [Out.pure_eq, Out.ok.injEq, Prod.mk.injEq] at hall
  rw [h1, h2, hall.1, hall.2]
  exact ⟨rfl, rfl⟩

/-! ### C45 -/

/-- C45: the reserved tag ids -1 … -10 have ten different names, every other id is reported as `__reserved__`, which is none
of them. -/
theorem C45_tags (a b : Int) :
    ((-10 ≤ a ∧ a ≤ -1) → (-10 ≤ b ∧ b ≤ -1) → xtnr2str a = xtnr2str b → a = b) ∧
    (xtnr2str a = b8 "__reserved__" ↔ ¬ (-10 ≤ a ∧ a ≤ -1)) := by
  have key : ∀ i j : Fin 10, xtnr2str (-1 - (i.val : Int)) = xtnr2str (-1 - (j.val : Int)) → i = j := by decide +kernel
  have key2 : ∀ i : Fin 10, xtnr2str (-1 - (i.val : Int)) ≠ b8 "__reserved__" := by decide +kernel
  have conv : ∀ a : Int, (-10 ≤ a ∧ a ≤ -1) → ∃ i : Fin 10, a = -1 - (i.val : Int) := fun a h => ⟨⟨(-1 - a).toNat, by omega⟩, by simp only; omega⟩
  refine ⟨?_, ?_, ?_⟩
  · intro ha hb h
    obtain ⟨i, rfl⟩ := conv a ha
    obtain ⟨j, rfl⟩ := conv b hb
    rw [key i j h]
  · intro h ha
    obtain ⟨i, rfl⟩ := conv a ha
    exact key2 i h
  · intro h
    unfold xtnr2str
    rw [if_neg (by omega), if_neg (by omega), if_neg (by omega), if_neg (by omega), if_neg (by omega), if_neg (by omega),
      if_neg (by omega), if_neg (by omega), if_neg (by omega), if_neg (by omega)]

/-- C45: the same for attribute ids. -/
theorem C45_params (a b : Int) :
    ((-10 ≤ a ∧ a ≤ -1) → (-10 ≤ b ∧ b ≤ -1) → xpnr2str a = xpnr2str b → a = b) ∧
    (xpnr2str a = b8 "__reserved__" ↔ ¬ (-10 ≤ a ∧ a ≤ -1)) := by
  have key : ∀ i j : Fin 10, xpnr2str (-1 - (i.val : Int)) = xpnr2str (-1 - (j.val : Int)) → i = j := by decide +kernel
  have key2 : ∀ i : Fin 10, xpnr2str (-1 - (i.val : Int)) ≠ b8 "__reserved__" := by decide +kernel
  have conv : ∀ a : Int, (-10 ≤ a ∧ a ≤ -1) → ∃ i : Fin 10, a = -1 - (i.val : Int) := fun a h => ⟨⟨(-1 - a).toNat, by omega⟩, by simp only; omega⟩
  refine ⟨?_, ?_, ?_⟩
  · intro ha hb h
    obtain ⟨i, rfl⟩ := conv a ha
    obtain ⟨j, rfl⟩ := conv b hb
    rw [key i j h]
  · intro h ha
    obtain ⟨i, rfl⟩ := conv a ha
    exact key2 i h
  · intro h
    unfold xpnr2str
    rw [if_neg (by omega), if_neg (by omega), if_neg (by omega), if_neg (by omega), if_neg (by omega), if_neg (by omega),
      if_neg (by omega), if_neg (by omega), if_neg (by omega), if_neg (by omega)]

/-- C45: the assignment of names to ids, in full -/
theorem C45_names :
    (List.range 10).map (fun i : Nat => xtnr2str (-1 - (i : Int))) = ["NULL", "meta_root", "tag_symbols", "param_symbols", "hash_index", "payload",
      "reference", "processed", "et-tecera", "transaction"].map b8 ∧
    (List.range 10).map (fun i : Nat => xpnr2str (-1 - (i : Int))) = ["NULL", "name", "hash", "modified", "count", "version", "type_count",
      "id", "author", "time_ms"].map b8 := by decide +kernel

/-- C45 does not extend to the reader's name of an attribute: `getSymbol` on the attribute table names reserved ids by the
names of tags, in every file: the attribute `count` is shown as `hash_index`. -/
theorem C45_param_names_false (f : Img) (t : RTab) : f.getSymbol t (-5) = .ok (b8 "hash_index") ∧ xpnr2str (-5) = b8 "count" := ⟨rfl, rfl⟩

end BX
