import Verif.Lemmas.SourceXb
import Verif.Props.Room
/-
The elements of a tree of a document are different, so that they fit in its file; what the creator needs for them.
-/
namespace BX
open XBT Spec

/-! ### the elements of a tree -/

mutual
/-- the elements of a tree -/
def treeEls : ETree → List Nat
  | .node e ks => e :: treesEls ks
def treesEls : List ETree → List Nat
  | [] => []
  | k :: ks => treeEls k ++ treesEls ks
end

mutual
theorem below_unique {D : Doc} : ∀ (T U : ETree), D.Below T → D.Below U → T.top = U.top → T = U
  | .node e ks, .node e' ks', h1, h2, h3 => by
    unfold Doc.Below at h1 h2
    have h3 : e = e' := h3
    subst h3
    have h4 : tops ks = tops ks' := by rw [← h1.1, h2.1]
    rw [belows_unique ks ks' h1.2 h2.2 h4]
theorem belows_unique {D : Doc} : ∀ (l m : List ETree), D.BelowAll l → D.BelowAll m → tops l = tops m → l = m
  | [], [], _, _, _ => rfl
  | [], _ :: _, _, _, h => by cases h
  | _ :: _, [], _, _, h => by cases h
  | T :: l, U :: m, h1, h2, h3 => by
    unfold Doc.BelowAll at h1 h2
    simp only [tops, List.map_cons, List.cons.injEq] at h3
    rw [below_unique T U h1.1 h2.1 h3.1, belows_unique l m h1.2 h2.2 h3.2]
end

mutual
theorem below_sub {D : Doc} : ∀ (T : ETree) (x : Nat), D.Below T → x ∈ treeEls T → ∃ S : ETree, S.top = x ∧ D.Below S ∧ (treeEls S).length ≤ (treeEls T).length
  | .node e ks, x, h, hx => by
    unfold treeEls at hx
    rcases List.mem_cons.1 hx with hx | hx
    · exact ⟨.node e ks, hx.symm, h, Nat.le_refl _⟩
    · unfold Doc.Below at h
      obtain ⟨S, h1, h2, h3⟩ := belows_sub ks x h.2 hx
      refine ⟨S, h1, h2, ?_⟩
      conv => rhs; unfold treeEls
      rw [List.length_cons]; omega
theorem belows_sub {D : Doc} : ∀ (l : List ETree) (x : Nat), D.BelowAll l → x ∈ treesEls l → ∃ S : ETree, S.top = x ∧ D.Below S ∧ (treeEls S).length ≤ (treesEls l).length
  | [], x, _, hx => by unfold treesEls at hx; cases hx
  | T :: l, x, h, hx => by
    unfold Doc.BelowAll at h
    unfold treesEls at hx ⊢
    rw [List.length_append]
    rcases List.mem_append.1 hx with hx | hx
    · obtain ⟨S, h1, h2, h3⟩ := below_sub T x h.1 hx
      exact ⟨S, h1, h2, by omega⟩
    · obtain ⟨S, h1, h2, h3⟩ := belows_sub l x h.2 hx
      exact ⟨S, h1, h2, by omega⟩
end

/-- an element is not below itself -/
theorem below_irrefl {D : Doc} {e : Nat} {ks : List ETree} (h : D.Below (.node e ks)) : e ∉ treesEls ks := by
  intro he
  have h' := h
  unfold Doc.Below at h'
  obtain ⟨S, h1, h2, h3⟩ := belows_sub ks e h'.2 he
  have := below_unique S (.node e ks) h2 h h1
  rw [this] at h3
  unfold treeEls at h3
  rw [List.length_cons] at h3
  omega

mutual
theorem below_parent {D : Doc} : ∀ (T : ETree) (x : Nat), D.Below T → x ∈ treeEls T → x = T.top ∨ ∃ p ∈ treeEls T, x ∈ D.forest.at' (.kids p)
  | .node e ks, x, h, hx => by
    unfold Doc.Below at h
    unfold treeEls at hx ⊢
    rcases List.mem_cons.1 hx with hx | hx
    · exact Or.inl hx
    · right
      rcases belows_parent ks x h.2 hx with h1 | ⟨p, h1, h2⟩
      · exact ⟨e, by simp, by rw [h.1]; exact h1⟩
      · exact ⟨p, List.mem_cons_of_mem _ h1, h2⟩
theorem belows_parent {D : Doc} : ∀ (l : List ETree) (x : Nat), D.BelowAll l → x ∈ treesEls l → x ∈ tops l ∨ ∃ p ∈ treesEls l, x ∈ D.forest.at' (.kids p)
  | [], x, _, hx => by unfold treesEls at hx; cases hx
  | T :: l, x, h, hx => by
    unfold Doc.BelowAll at h
    unfold treesEls at hx ⊢
    rcases List.mem_append.1 hx with hx | hx
    · rcases below_parent T x h.1 hx with h1 | ⟨p, h1, h2⟩
      · exact Or.inl (by rw [h1]; simp [tops])
      · exact Or.inr ⟨p, List.mem_append.2 (Or.inl h1), h2⟩
    · rcases belows_parent l x h.2 hx with h1 | ⟨p, h1, h2⟩
      · exact Or.inl (by simp only [tops, List.map_cons] at h1 ⊢; exact List.mem_cons_of_mem _ h1)
      · exact Or.inr ⟨p, List.mem_append.2 (Or.inr h1), h2⟩
end

mutual
theorem below_apart {D : Doc} {els V fl} (hl : Lists D.forest els V fl) {e : Nat} {U : ETree} (hU : D.Below U) (hu : U.top ∈ D.forest.at' (.kids e)) : ∀ S : ETree, D.Below S → e ∉ treeEls S → S.top ∉ treeEls U →
    ∀ x ∈ treeEls S, x ∉ treeEls U
  | .node s ks, h, he, ht, x, hx => by
    unfold Doc.Below at h
    unfold treeEls at hx he
    have ht : s ∉ treeEls U := ht
    rw [List.mem_cons, not_or] at he
    rcases List.mem_cons.1 hx with rfl | hx
    · exact ht
    · refine belows_apart hl hU hu ks h.2 he.2 (fun c hc hcu => ?_) x hx
      rw [← h.1] at hc
      rcases below_parent U c hU hcu with h1 | ⟨p, h1, h2⟩
      · have := hl.disj _ _ _ hc (h1 ▸ hu)
        simp only [Place.kids.injEq] at this
        exact he.1 this.symm
      · have := hl.disj _ _ _ hc h2
        simp only [Place.kids.injEq] at this
        exact ht (this ▸ h1)
theorem belows_apart {D : Doc} {els V fl} (hl : Lists D.forest els V fl) {e : Nat} {U : ETree} (hU : D.Below U) (hu : U.top ∈ D.forest.at' (.kids e)) : ∀ l : List ETree, D.BelowAll l → e ∉ treesEls l →
    (∀ c ∈ tops l, c ∉ treeEls U) → ∀ x ∈ treesEls l, x ∉ treeEls U
  | [], _, _, _, x, hx => by unfold treesEls at hx; cases hx
  | S :: l, h, he, ht, x, hx => by
    unfold Doc.BelowAll at h
    unfold treesEls at hx he
    rw [List.mem_append, not_or] at he
    rcases List.mem_append.1 hx with hx | hx
    · exact below_apart hl hU hu S h.1 he.1 (ht _ (by simp [tops])) x hx
    · exact belows_apart hl hU hu l h.2 he.2 (fun c hc => ht c (by simp only [tops, List.map_cons] at hc ⊢; exact List.mem_cons_of_mem _ hc)) x hx
end

mutual
theorem tree_nodup {D : Doc} {els V fl} (hl : Lists D.forest els V fl) : ∀ T : ETree, D.Below T → (treeEls T).Nodup
  | .node e ks, h => by
    have hi := below_irrefl h
    unfold Doc.Below at h
    unfold treeEls
    exact List.nodup_cons.2 ⟨hi, trees_nodup hl e ks h.2 (fun c hc => by rw [h.1]; exact hc) (by rw [← h.1]; exact hl.nodup _) hi⟩
theorem trees_nodup {D : Doc} {els V fl} (hl : Lists D.forest els V fl) (e : Nat) : ∀ l : List ETree, D.BelowAll l → (∀ c ∈ tops l, c ∈ D.forest.at' (.kids e)) → (tops l).Nodup → e ∉ treesEls l →
    (treesEls l).Nodup
  | [], _, _, _, _ => by unfold treesEls; exact List.nodup_nil
  | T :: l, h, hk, hn, he => by
    unfold Doc.BelowAll at h
    unfold treesEls at he ⊢
    rw [List.mem_append, not_or] at he
    simp only [tops, List.map_cons] at hk hn
    obtain ⟨n1, n2⟩ := List.nodup_cons.1 hn
    refine List.nodup_append.2 ⟨tree_nodup hl T h.1, trees_nodup hl e l h.2 (fun c hc => hk c (List.mem_cons_of_mem _ hc)) n2 he.2, ?_⟩
    rintro x hx y hy rfl
    refine belows_apart hl h.1 (hk _ (by simp)) l h.2 he.2 (fun c hc hcu => ?_) x hy hx
    rcases below_parent T c h.1 hcu with h1 | ⟨p, h1, h2⟩
    · rw [h1] at hc; exact n1 hc
    · have := hl.disj _ _ _ (hk c (List.mem_cons_of_mem _ hc)) h2
      simp only [Place.kids.injEq] at this
      exact he.1 (this ▸ h1)
end

/-! ### the memory of a tree -/

theorem nodup_nat_le : ∀ (l m : List Nat), l.Nodup → (∀ s ∈ l, s ∈ m) → l.length ≤ m.length
  | [], _, _, _ => by simp
  | a :: l, m, hn, hs => by
    have ham : a ∈ m := hs a (by simp)
    have hn' := List.nodup_cons.mp hn
    have := nodup_nat_le l (m.erase a) hn'.2 (fun s hsl => (List.mem_erase_of_ne (by rintro rfl; exact hn'.1 hsl)).mpr (hs s (by simp [hsl])))
    rw [List.length_erase_of_mem ham] at this
    have : 0 < m.length := List.length_pos_of_mem ham
    simp only [List.length_cons]
    omega

/-- where a part begins -/
def partAt (P : Pool) : Part → Nat
  | .elem e => e
  | .names b => (P.tab b).names
  | .index b => (P.tab b).index

/-- how long a part is -/
def partLen (D : Doc) : Part → Nat
  | .elem e => 24 + aa (D.val e).length
  | .names b => symsLen (D.syms b)
  | .index b => 4 * (D.syms b).length

theorem parts_fit {P : Pool} {D : Doc} {els V fl} (k : Keeps P D els V fl) (l : List Part) (hn : l.Nodup) (hin : ∀ p ∈ l, ∀ i, partAt P p ≤ i → i < partAt P p + partLen D p → inPart P D p i) :
    (l.map (partLen D)).sum ≤ P.alloc := by
  have h := nodup_nat_le (l.flatMap fun p => List.range' (partAt P p) (partLen D p)) (List.range P.alloc) ?_ ?_
  · rw [List.length_range, List.length_flatMap] at h
    simpa using h
  · refine (List.pairwise_flatMap).2 ⟨fun p _ => List.nodup_range', ?_⟩
    refine List.Pairwise.imp_of_mem ?_ hn
    rintro p q hp hq hne x hx y hy rfl
    obtain ⟨h1, h2⟩ := List.mem_range'_1.1 hx
    obtain ⟨h3, h4⟩ := List.mem_range'_1.1 hy
    exact hne (k.apart _ _ x (hin p hp x h1 h2) (hin q hq x h3 h4))
  · intro x hx
    obtain ⟨p, hp, hx⟩ := List.mem_flatMap.1 hx
    obtain ⟨h1, h2⟩ := List.mem_range'_1.1 hx
    exact List.mem_range.2 (k.lt (hin p hp x h1 h2))

/-- a good value is whole, whatever follows it (four bytes more are read of a digest) -/
theorem good_whole {t : XBT} {v : List UInt8} (hg : GoodVal t v) (hb : t ≠ BLOB_STRING) (l : List UInt8) (hsh : t = SHA1 → 24 ≤ (v ++ l).length) :
    WholeValue t (v ++ l) ∧ (size2 t (binSize t (v ++ l))).toNat ≤ v.length + 4 := by
  unfold WholeValue
  by_cases h1 : t = STRING
  · subst h1
    have hm : (0 : UInt8) ∈ v := hg
    have e1 : size2 STRING (binSize STRING (v ++ l)) = (cPrefix (v ++ l)).length + 1 := rfl
    have := cPrefix_short hm
    rw [if_pos rfl, e1, cPrefix_longer hm l]
    exact ⟨List.mem_append.2 (Or.inl hm), by omega⟩
  · rw [if_neg h1]
    by_cases hvz : isVarsize t = true
    · obtain ⟨g1, g2⟩ := good_size hg l hvz
      have e1 : size2 t (binSize t (v ++ l)) = ((rdI32 (v ++ l)).toNat : Int) + 4 := by
        cases t <;> first | (exact absurd hvz (by decide)) | (exact absurd rfl hb) | rfl
      rw [e1, g1, List.length_append]
      omega
    · obtain ⟨t1, t2, t3, t4⟩ := good_types hg
      rw [List.length_append] at hsh ⊢
      cases t <;> first | (exact absurd rfl h1) | (exact absurd rfl hb) | (exact absurd (by decide) hvz) | (exact absurd rfl t1) | (exact absurd rfl t2) | (exact absurd rfl t3) | (exact absurd rfl t4) |
          (have hl : v.length = 4 := by simpa [GoodVal, is4, isINT32] using hg
           simp [binSize, size2, hl]; done) |
          (have hl : (v.length : Int) = 8 := by simpa [GoodVal, is4, isINT32, fixedSize] using hg
           simp [binSize, size2]; omega) |
          (have hl : (v.length : Int) = 16 := by simpa [GoodVal, is4, isINT32, fixedSize] using hg
           simp [binSize, size2]; omega) |
          (have hl : (v.length : Int) = 0 := by simpa [GoodVal, is4, isINT32, fixedSize] using hg
           simp [binSize, size2]; done) |
          (have hl : 20 ≤ v.length := hg
           have := hsh rfl
           simp [binSize, size2]; omega)

theorem dataOf_len (P : Pool) (e : Nat) : (P.dataOf e).length = P.fileSize - (e + 24) := by
  unfold Pool.dataOf Pool.behind
  rw [show ((e : Int) + 24).toNat = e + 24 by omega, slice_length]

/-- what is needed at most for the elements of a tree and their attributes -/
def room (D : Doc) (l : List Nat) : Nat := (l.map fun e => 24 + aa (D.val e).length).sum

theorem room_append (D : Doc) (l m : List Nat) : room D (l ++ m) = room D l + room D m := by
  unfold room; rw [List.map_append, List.sum_append]

/-- the attributes of elements -/
def attrsOf (D : Doc) (l : List Nat) : List Nat := l.flatMap fun e => D.forest.at' (.attrs e)

theorem data_whole {P : Pool} {D : Doc} {els V fl} (k : Keeps P D els V fl) {e : Nat} (he : e ∈ els) (hg : GoodVal (D.type e) (D.val e)) (hb : D.type e ≠ BLOB_STRING)
    (hsh : D.type e = SHA1 → e + 48 ≤ P.fileSize) :
    WholeValue (D.type e) (P.dataOf e) ∧ (size2 (D.type e) (binSize (D.type e) (P.dataOf e))).toNat ≤ (D.val e).length + 4 := by
  obtain ⟨l, hl⟩ := dataOf_spec k he
  have hlen := dataOf_len P e
  rw [hl] at hlen ⊢
  exact good_whole hg hb l (fun h => by have := hsh h; omega)

theorem attrs_room {P : Pool} {D : Doc} {els V fl} (k : Keeps P D els V fl) : ∀ l : List Nat, (∀ a ∈ l, a ∈ els) → (∀ a ∈ l, D.storedAttr a) → (∀ a ∈ l, D.type a = SHA1 → a + 48 ≤ P.fileSize) →
    8 * l.length + ((l.map (srcAttr P D)).map fun p => needAttr p.2).sum ≤ 2 * room D l
  | [], _, _, _ => by simp [room]
  | a :: l, h1, h2, h3 => by
    have ih := attrs_room k l (fun x hx => h1 x (List.mem_cons_of_mem _ hx)) (fun x hx => h2 x (List.mem_cons_of_mem _ hx)) (fun x hx => h3 x (List.mem_cons_of_mem _ hx))
    obtain ⟨-, hw⟩ := data_whole k (h1 a (by simp)) (h2 a (by simp)).2.1 (h2 a (by simp)).2.2.1 (h3 a (by simp))
    have hge := aa_ge (D.val a).length
    unfold room at ih ⊢
    simp only [List.map_cons, List.sum_cons, List.length_cons]
    have : needAttr (srcAttr P D a).2 = (size2 (D.type a) (binSize (D.type a) (P.dataOf a))).toNat + 16 := rfl
    omega

mutual
theorem src_room {P : Pool} {D : Doc} {els V fl} (k : Keeps P D els V fl) : ∀ T : ETree, D.Below T → T.top ∈ els → D.Every D.storedElem D.storedAttr T → D.Small P.fileSize T →
    need (srcElem P D T) + 4 ≤ 2 * room D (treeEls T) + 2 * room D (attrsOf D (treeEls T))
  | .node e ks, hb, he, hq, hs => by
    unfold Doc.Small at hs
    unfold Doc.Every at hq hs
    unfold Doc.Below at hb
    have he : e ∈ els := he
    have h1 := srcs_room k ks hb.2 (fun x hx => (k.lists.mem x).1 ⟨.kids e, by rw [hb.1]; exact hx⟩) hq.2.2 hs.2.2
    have h2 := attrs_room k (D.forest.at' (.attrs e)) (fun a ha => (k.lists.mem a).1 ⟨_, ha⟩) hq.2.1 hs.2.1
    obtain ⟨-, hw⟩ := data_whole k he hq.1.2.2.1 hq.1.2.2.2 hs.1.2
    have hge := aa_ge (D.val e).length
    have hv : needValue (if D.type e = NULL then .none else .bin (D.type e) (P.dataOf e)) ≤ (D.val e).length + 13 := by
      split
      · simp only [needValue]; omega
      · simp only [needValue]; omega
    have e1 : room D (treeEls (.node e ks)) = 24 + aa (D.val e).length + room D (treesEls ks) := by unfold treeEls room; rw [List.map_cons, List.sum_cons]
    have e2 : room D (attrsOf D (treeEls (.node e ks))) = room D (D.forest.at' (.attrs e)) + room D (attrsOf D (treesEls ks)) := by
      unfold treeEls attrsOf; rw [List.flatMap_cons, room_append]
    unfold srcElem need
    rw [e1, e2, List.length_map, srcElems_length]
    omega
theorem srcs_room {P : Pool} {D : Doc} {els V fl} (k : Keeps P D els V fl) : ∀ ks : List ETree, D.BelowAll ks → (∀ x ∈ tops ks, x ∈ els) → D.EveryAll D.storedElem D.storedAttr ks →
    D.EveryAll (fun e => (D.forest.at' (.attrs e)).length ≤ 32767 ∧ (D.type e = SHA1 → e + 48 ≤ P.fileSize)) (fun a => D.type a = SHA1 → a + 48 ≤ P.fileSize) ks →
    4 * ks.length + needAll (srcElems P D ks) ≤ 2 * room D (treesEls ks) + 2 * room D (attrsOf D (treesEls ks))
  | [], _, _, _, _ => by unfold srcElems needAll; simp
  | T :: ks, hb, hm, hq, hs => by
    unfold Doc.BelowAll at hb
    unfold Doc.EveryAll at hq hs
    have h1 := src_room k T hb.1 (hm T.top (by simp [tops])) hq.1 hs.1
    have h2 := srcs_room k ks hb.2 (fun x hx => hm x (by simp only [tops, List.map_cons] at hx ⊢; exact List.mem_cons_of_mem _ hx)) hq.2 hs.2
    unfold srcElems needAll treesEls
    rw [room_append, show attrsOf D (treeEls T ++ treesEls ks) = attrsOf D (treeEls T) ++ attrsOf D (treesEls ks) by unfold attrsOf; exact List.flatMap_append, room_append, List.length_cons]
    omega
end

mutual
theorem tree_mem {P : Pool} {D : Doc} {els V fl} (k : Keeps P D els V fl) : ∀ T : ETree, D.Below T → T.top ∈ els → D.Every D.storedElem D.storedAttr T → ∀ x ∈ treeEls T, x ∈ els ∧ D.forest.tag x = true
  | .node e ks, hb, he, hq, x, hx => by
    unfold Doc.Every at hq
    unfold Doc.Below at hb
    unfold treeEls at hx
    rcases List.mem_cons.1 hx with rfl | hx
    · exact ⟨he, hq.1.1⟩
    · exact trees_mem k ks hb.2 (fun x hx => (k.lists.mem x).1 ⟨.kids e, by rw [hb.1]; exact hx⟩) hq.2.2 x hx
theorem trees_mem {P : Pool} {D : Doc} {els V fl} (k : Keeps P D els V fl) : ∀ ks : List ETree, D.BelowAll ks → (∀ x ∈ tops ks, x ∈ els) → D.EveryAll D.storedElem D.storedAttr ks →
    ∀ x ∈ treesEls ks, x ∈ els ∧ D.forest.tag x = true
  | [], _, _, _, x, hx => by unfold treesEls at hx; cases hx
  | T :: ks, hb, hm, hq, x, hx => by
    unfold Doc.BelowAll at hb
    unfold Doc.EveryAll at hq
    unfold treesEls at hx
    rcases List.mem_append.1 hx with hx | hx
    · exact tree_mem k T hb.1 (hm T.top (by simp [tops])) hq.1 x hx
    · exact trees_mem k ks hb.2 (fun x hx => hm x (by simp only [tops, List.map_cons] at hx ⊢; exact List.mem_cons_of_mem _ hx)) hq.2 x hx
end

theorem attrsOf_nodup {D : Doc} {els V fl} (hl : Lists D.forest els V fl) {l : List Nat} (h : l.Nodup) : (attrsOf D l).Nodup := by
  refine (List.pairwise_flatMap).2 ⟨fun e _ => hl.nodup _, ?_⟩
  refine List.Pairwise.imp_of_mem ?_ h
  rintro p q _ _ hne x hx y hy rfl
  have := hl.disj _ _ _ hx hy
  simp only [Place.attrs.injEq] at this
  exact hne this

theorem symsLen_names : ∀ l : List Sym, ((docOps l).map fun op => op.name.length + 6).sum ≤ 2 * symsLen l
  | [] => by simp [docOps, symsLen]
  | s :: l => by
    have ih := symsLen_names l
    have h1 := aa_ge (s.name.length + 4)
    unfold docOps at ih ⊢
    simp only [symsLen, recLen, List.filter_cons]
    split
    · simp only [List.map_cons, List.sum_cons]
      have : (RegOp.typed s.name s.type).name = s.name := rfl
      rw [this]
      omega
    · omega

/-- the elements of a tree with their attributes, and the names, are in the file of the document -/
theorem tree_fits {P : Pool} {D : Doc} {els V fl} (k : Keeps P D els V fl) (T : ETree) (hb : D.Below T) (he : T.top ∈ els) (hq : D.Every D.storedElem D.storedAttr T) :
    room D (treeEls T) + room D (attrsOf D (treeEls T)) + symsLen (D.syms true) + symsLen (D.syms false) ≤ P.fileSize := by
  have hm := tree_mem k T hb he hq
  have hn := tree_nodup k.lists T hb
  have ha := attrsOf_nodup k.lists hn
  have hap : (treeEls T ++ attrsOf D (treeEls T)).Nodup := by
    refine List.nodup_append.2 ⟨hn, ha, ?_⟩
    rintro x hx y hy rfl
    obtain ⟨p, -, hp⟩ := List.mem_flatMap.1 hy
    have h1 := k.lists.attrs _ _ hp
    rw [(hm x hx).2] at h1
    cases h1
  have hel : ∀ x ∈ treeEls T ++ attrsOf D (treeEls T), x ∈ els := by
    intro x hx
    rcases List.mem_append.1 hx with hx | hx
    · exact (hm x hx).1
    · obtain ⟨p, -, hp⟩ := List.mem_flatMap.1 hx
      exact (k.lists.mem x).1 ⟨_, hp⟩
  have h := parts_fit k ((treeEls T ++ attrsOf D (treeEls T)).map Part.elem ++ [.names true, .names false]) ?_ ?_
  · have hsz := k.sees.size
    have e1 : ∀ l : List Nat, ((l.map Part.elem).map (partLen D)).sum = room D l := by
      intro l; unfold room; rw [List.map_map]; rfl
    rw [List.map_append, List.sum_append, e1, room_append] at h
    simp only [List.map_cons, List.map_nil, List.sum_cons, List.sum_nil, partLen] at h
    omega
  · refine List.nodup_append.2 ⟨?_, by simp, ?_⟩
    · exact List.Pairwise.map _ (fun a b h h' => h (by cases h'; rfl)) hap
    · rintro p hp q hq rfl
      obtain ⟨x, -, rfl⟩ := List.mem_map.1 hp
      simp at hq
  · intro p hp i h1 h2
    rcases List.mem_append.1 hp with hp | hp
    · obtain ⟨x, hx, rfl⟩ := List.mem_map.1 hp
      exact ⟨(k.lists.mem x).2 (hel x hx), h1, by simp only [partAt, partLen] at h2; omega⟩
    · have : ∀ b, p = .names b → inPart P D p i := by
        rintro b rfl
        simp only [partAt, partLen] at h1 h2
        refine ⟨fun h0 => ?_, h1, h2⟩
        by_cases hl : D.syms b = []
        · rw [hl] at h2; simp only [symsLen] at h2; omega
        · exact (k.tabs b).some hl h0
      simp only [List.mem_cons, List.not_mem_nil, or_false] at hp
      rcases hp with hp | hp
      · exact this _ hp
      · exact this _ hp

mutual
theorem src_doc {P : Pool} {D : Doc} {els V fl} (k : Keeps P D els V fl) (flt : CStr → List UInt8) (pt : BStr → XBT) : ∀ T : ETree, D.Below T → T.top ∈ els → D.Every D.storedElem D.storedAttr T →
    D.Small P.fileSize T → (treeEls T).length ≤ 2147483647 → TextDoc flt pt (srcElem P D T)
  | .node e ks, hb, he, hq, hs, hn => by
    unfold Doc.Small at hs
    unfold Doc.Every at hq hs
    unfold Doc.Below at hb
    unfold treeEls at hn
    rw [List.length_cons] at hn
    have he : e ∈ els := he
    unfold srcElem TextDoc
    refine ⟨by rw [List.length_map]; exact hs.1.1, ?_, ?_, ?_, srcs_doc k flt pt ks hb.2 (fun x hx => (k.lists.mem x).1 ⟨.kids e, by rw [hb.1]; exact hx⟩) hq.2.2 hs.2.2 (by omega)⟩
    · rw [srcElems_length]
      have : ∀ l : List ETree, l.length ≤ (treesEls l).length := by
        intro l
        induction l with
        | nil => simp
        | cons T l ih =>
          unfold treesEls
          have : 1 ≤ (treeEls T).length := by cases T; unfold treeEls; simp
          rw [List.length_append, List.length_cons]; omega
      have := this ks
      omega
    · split
      · trivial
      · exact (data_whole k he hq.1.2.2.1 hq.1.2.2.2 hs.1.2).1
    · intro p hp
      obtain ⟨a, ha, rfl⟩ := List.mem_map.1 hp
      exact (data_whole k ((k.lists.mem a).1 ⟨_, ha⟩) (hq.2.1 a ha).2.1 (hq.2.1 a ha).2.2.1 (hs.2.1 a ha)).1
theorem srcs_doc {P : Pool} {D : Doc} {els V fl} (k : Keeps P D els V fl) (flt : CStr → List UInt8) (pt : BStr → XBT) : ∀ ks : List ETree, D.BelowAll ks → (∀ x ∈ tops ks, x ∈ els) →
    D.EveryAll D.storedElem D.storedAttr ks →
    D.EveryAll (fun e => (D.forest.at' (.attrs e)).length ≤ 32767 ∧ (D.type e = SHA1 → e + 48 ≤ P.fileSize)) (fun a => D.type a = SHA1 → a + 48 ≤ P.fileSize) ks →
    (treesEls ks).length ≤ 2147483647 → TextDocAll flt pt (srcElems P D ks)
  | [], _, _, _, _, _ => by unfold srcElems TextDocAll; trivial
  | T :: ks, hb, hm, hq, hs, hn => by
    unfold Doc.BelowAll at hb
    unfold Doc.EveryAll at hq hs
    unfold treesEls at hn
    rw [List.length_append] at hn
    unfold srcElems TextDocAll
    exact ⟨src_doc k flt pt T hb.1 (hm T.top (by simp [tops])) hq.1 hs.1 (by omega),
      srcs_doc k flt pt ks hb.2 (fun x hx => hm x (by simp only [tops, List.map_cons] at hx ⊢; exact List.mem_cons_of_mem _ hx)) hq.2 hs.2 (by omega)⟩
end

theorem room_length (D : Doc) : ∀ l : List Nat, 24 * l.length ≤ room D l
  | [] => by simp
  | a :: l => by
    have := room_length D l
    unfold room at this ⊢
    simp only [List.map_cons, List.sum_cons, List.length_cons]; omega

/-- the creator has room for what it gets from a document -/
theorem made_total {P : Pool} {D : Doc} {els V fl} (k : Keeps P D els V fl) (T : ETree) (hb : D.Below T) (he : T.top ∈ els) (hq : D.Every D.storedElem D.storedAttr T) (hs : D.Small P.fileSize T)
    (flt : CStr → List UInt8) (hflt : ∀ s, (flt s).length = 4) (filename : BStr) (hfn : filename.length ≤ 800 + 2 * P.fileSize) (hsz : P.fileSize < 2147483648) (mtime : Int) (m0 : Mem) :
    ∃ f, makeXbWith flt (docOps (D.syms true)) (docOps (D.syms false)) filename mtime P.fileSize m0 (srcElem P D T) = .ok f ∧ f.size < 1024 + P.fileSize * 4 ∧
      f.size ≤ 193 + filename.length + 2 * P.fileSize := by
  have h1 := src_room k T hb he hq hs
  have h2 := tree_fits k T hb he hq
  have h3 := room_length D (treeEls T)
  have h4 := symsLen_names (D.syms true)
  have h5 := symsLen_names (D.syms false)
  have t1 := tabNeed (docOps (D.syms true))
  have t2 := tabNeed (docOps (D.syms false))
  obtain ⟨m', len, g1, g2⟩ := fillData_total (c := ⟨regAll (docOps (D.syms true)), regAll (docOps (D.syms false)), flt, 1024 + P.fileSize * 4⟩) hflt filename mtime (srcElem P D T) m0
    (src_doc k flt _ T hb he hq hs (by omega)) (srcElem_ok k _ T hb he hq) _ _ t1 t2 (by simp only; omega)
  refine ⟨⟨m', aa len⟩, ?_, ?_⟩
  · unfold makeXbWith
    simp only
    rw [g1]
    rfl
  · have := aa_lt len
    simp only
    omega

end BX
