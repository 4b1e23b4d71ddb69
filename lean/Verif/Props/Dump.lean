import Verif.Lemmas.Dump
import Verif.Props.Append
import Verif.Props.Pack
/-
Property C54: printing an element tree.
-/
namespace BX
open XBT Spec

/-- for all large enough bounds -/
def Eventually (p : Nat → Prop) : Prop := ∃ n, ∀ m, n ≤ m → p m

theorem Eventually.and {p q : Nat → Prop} (h : Eventually p) (h' : Eventually q) : Eventually fun n => p n ∧ q n := by
  obtain ⟨a, ha⟩ := h
  obtain ⟨b, hb⟩ := h'
  exact ⟨max a b, fun m hm => ⟨ha m (by omega), hb m (by omega)⟩⟩

theorem Eventually.mono {p q : Nat → Prop} (h : Eventually p) (h' : ∀ n, p n → q n) : Eventually q := by
  obtain ⟨a, ha⟩ := h
  exact ⟨a, fun m hm => h' m (ha m hm)⟩

theorem Eventually.succ {p q : Nat → Prop} (h : Eventually p) (h' : ∀ n, p n → q (n + 1)) : Eventually q := by
  obtain ⟨a, ha⟩ := h
  refine ⟨a + 1, fun m hm => ?_⟩
  obtain ⟨k, rfl⟩ : ∃ k, m = k + 1 := ⟨m - 1, by omega⟩
  exact h' k (ha k (by omega))

theorem content_type {f : Img} {t : XBT} {p : Int} {d : Data} (h : f.content t p = .ok d) : d.type = t ∧ (t = STRING → (cPrefix d.bytes).length ≠ d.bytes.length) := by
  unfold Img.content at h
  split at h
  · next h4 =>
    obtain ⟨b, -, h⟩ := Out.bind_eq_ok h; cases h
    exact ⟨rfl, fun e => by subst e; exact absurd h4 (by decide)⟩
  · split at h
    · next h8 =>
      obtain ⟨b, -, h⟩ := Out.bind_eq_ok h; cases h
      exact ⟨rfl, fun e => by subst e; exact absurd h8 (by decide)⟩
    · split at h
      · obtain ⟨s, -, h⟩ := Out.bind_eq_ok h; cases h
        refine ⟨by simp_all, fun _ => ?_⟩
        show (cPrefix (s ++ [0])).length ≠ (s ++ [0]).length
        have : cPrefix (s ++ [0]) = cPrefix s := by
          unfold cPrefix
          rw [List.takeWhile_append]
          split
          · next hl =>
            have : s.takeWhile (fun x => decide (x ≠ 0)) = s := (List.takeWhile_prefix _).eq_of_length hl
            rw [this]; simp
          · rfl
        rw [this]
        have : (cPrefix s).length ≤ s.length := (List.takeWhile_prefix _).length_le
        simp; omega
      · next hs =>
        refine ⟨?_, fun e => absurd e hs⟩
        split at h
        · obtain ⟨n, -, h⟩ := Out.bind_eq_ok h
          split at h
          · cases h
          · obtain ⟨b, -, h⟩ := Out.bind_eq_ok h; cases h; rfl
        · split at h
          · cases h
          · obtain ⟨b, -, h⟩ := Out.bind_eq_ok h; cases h; rfl

theorem rawValue_str {f : Img} {x : Int} {d : Data} (h : f.rawValue x = .ok d) : d.type = STRING → (cPrefix d.bytes).length ≠ d.bytes.length := by
  unfold Img.rawValue at h
  obtain ⟨va, -, h⟩ := Out.bind_eq_ok h
  obtain ⟨c, -, h⟩ := Out.bind_eq_ok h
  split at h
  · cases h
  · simp only at h
    split at h
    · next he => obtain ⟨b, -, h⟩ := Out.bind_eq_ok h; cases h; intro e; rw [he] at e; cases e
    · have := content_type h
      intro e; exact this.2 (this.1 ▸ e)

/-- an attribute without alignment, or of four bytes in an aligned item, is printed from where `getData` finds it -/
theorem pRaw_eq {f : Img} {x i : Int} {d : Data} (hx : x % 4 = 0) (h : f.pGetData x (x + 12 + 8 * i) = .ok d) (ht : d.type ∈ [NULL, STRING] ∨ is4 d.type = true) :
    f.pRawValue x (x + 12 + 8 * i) = .ok d ∧ (d.type = STRING → (cPrefix d.bytes).length ≠ d.bytes.length) := by
  unfold Img.pGetData at h
  unfold Img.pRawValue
  obtain ⟨c, hc, h⟩ := Out.bind_eq_ok h
  rw [hc, Out.ok_bind]
  cases ho : ofCode c with
  | none => rw [ho] at h; cases h
  | some t =>
    rw [ho] at h
    simp only at h ⊢
    by_cases h4 : is4 t = true
    · rw [if_pos h4] at h
      have hty := content_type h
      have ht := hty.1; subst ht
      have hal : xalign d.type = 4 ∧ d.type ≠ UNIX_DATE := by
        generalize d.type = t at *
        cases t <;> first | (exact absurd h4 (by decide)) | exact ⟨rfl, by decide⟩
      have hd : ∃ w, f.pData (x + 12 + 8 * i) = .ok w := by
        unfold Img.content at h
        rw [if_pos h4] at h
        obtain ⟨b, hb, -⟩ := Out.bind_eq_ok h
        unfold Img.pData Img.i32
        rw [hb]; exact ⟨_, rfl⟩
      obtain ⟨w, hw⟩ := hd
      rw [hw, Out.ok_bind, if_pos hal.1, if_neg hal.2, if_pos h4, show aaI (x + 12 + 8 * i + 4) = x + 12 + 8 * i + 4 by unfold aaI; omega]
      exact ⟨h, hty.2⟩
    · rw [if_neg h4] at h
      obtain ⟨w, hw, h⟩ := Out.bind_eq_ok h
      have hty := content_type h
      have ht' := hty.1; subst ht'
      rw [hw, Out.ok_bind]
      have ht : d.type = NULL ∨ d.type = STRING := by
        rcases ht with ht | ht
        · simpa using ht
        · exact absurd ht h4
      have hal : xalign d.type = 0 ∧ d.type ≠ UNIX_DATE := by
        rcases ht with ht | ht <;> rw [ht] <;> exact ⟨rfl, by decide⟩
      simp only [hal.1, hal.2, h4]
      exact ⟨h, hty.2⟩

/-! ### what is printed -/

/-- the text of a value -/
def shown (gm : Gm) (fltText : List UInt8 → CStr) (d : Data) : CStr := (dataText gm fltText d).getD []

/-- attributes as printed -/
def renderAttrs (flt : CStr → List UInt8) (pt : BStr → XBT) (txt : Data → CStr) : List (BStr × SVal) → CStr
  | [] => []
  | p :: ps => ' ' :: toC p.1 ++ '=' :: '"' :: txt (attrData flt (pt p.1) p.2) ++ '"' :: renderAttrs flt pt txt ps

mutual
/-- an element as printed -/
def render (flt : CStr → List UInt8) (pt : BStr → XBT) (txt : Data → CStr) : Elem → Nat → CStr
  | .mk name value params children, deep =>
    let s := ((nodeData flt value).map txt).getD []
    tabs deep ++ '<' :: toC name ++ renderAttrs flt pt txt params ++
      match children with
      | [] => if s = [] then ['/', '>', '\n'] else '>' :: s ++ ('<' :: '/' :: toC name ++ ['>', '\n'])
      | e :: es => '>' :: '\n' :: renderAll flt pt txt (e :: es) (deep + 1) ++ tabs deep ++ s ++ '\n' :: tabs deep ++ ('<' :: '/' :: toC name ++ ['>', '\n'])
def renderAll (flt : CStr → List UInt8) (pt : BStr → XBT) (txt : Data → CStr) : List Elem → Nat → CStr
  | [], _ => []
  | e :: es, deep => render flt pt txt e deep ++ renderAll flt pt txt es deep
end

mutual
/-- the item and all items inside it are aligned -/
def AlignedItems (f : Img) : Elem → Int → Prop
  | .mk _ _ _ children, x => x % 4 = 0 ∧ AlignedAll f children x 0
def AlignedAll (f : Img) : List Elem → Int → Nat → Prop
  | [], _, _ => True
  | e :: es, x, i => (∀ y, f.getChildByIndex x i = .ok (some y) → AlignedItems f e y) ∧ AlignedAll f es x (i + 1)
end

mutual
theorem Laid.aligned {f : Img} : ∀ (e : Elem) (x : Int), Laid f e x → AlignedItems f e x
  | .mk n v ps cs, x, h => by
    unfold Laid at h
    unfold AlignedItems
    obtain ⟨h1, len, own, -, -, -, h5⟩ := h
    exact ⟨h1, LaidAll.aligned cs x 0 _ _ h5⟩
theorem LaidAll.aligned {f : Img} : ∀ (es : List Elem) (x : Int) (i : Nat) (lo hi : Int), LaidAll f es x i lo hi → AlignedAll f es x i
  | [], _, _, _, _, _ => by unfold AlignedAll; trivial
  | e :: es, x, i, lo, hi, h => by
    unfold LaidAll at h
    unfold AlignedAll
    obtain ⟨y, len, h1, -, -, -, -, h6, h7⟩ := h
    refine ⟨fun y' hy => ?_, LaidAll.aligned es x (i + 1) _ _ h7⟩
    rw [h1] at hy
    cases hy
    exact Laid.aligned e y h6
end

theorem printParams_render {flt : CStr → List UInt8} {pt : BStr → XBT} {f : Img} {r : Rd} {v : DumpEnv} {x : Int} (hx : x % 4 = 0) (hj : ∀ x i, (v.junk x i).length = 4097) :
    ∀ (ps : List (BStr × SVal)) (i : Nat),
    (∀ p ∈ ps, ((attrData flt (pt p.1) p.2).type ∈ [NULL, STRING] ∨ is4 (attrData flt (pt p.1) p.2).type = true) ∧ ∃ s, dataText v.gm v.flt (attrData flt (pt p.1) p.2) = some s ∧ '\x00' ∉ s) →
    (∀ j (h : j < ps.length), ReadsAttr flt pt f r x (i + j) ps[j]) →
    Eventually fun n => f.writeParams v r x n ps.length i = .ok (renderAttrs flt pt (shown v.gm v.flt) ps)
  | [], i, _, _ => ⟨0, fun n _ => rfl⟩
  | p :: ps, i, hg, hr => by
    obtain ⟨a, id, h1, h2, h3, h4⟩ := hr 0 (by simp)
    simp only [List.getElem_cons_zero, Nat.add_zero] at h1 h3 h4
    have ha : a = x + 12 + 8 * (i : Int) := by
      unfold Img.getParamByIndex at h1
      split at h1
      · cases h1
      · obtain ⟨pc, -, h1⟩ := Out.bind_eq_ok h1
        split at h1 <;> cases h1
        rfl
    obtain ⟨g1, s, g2, g3⟩ := hg p (by simp)
    subst ha
    obtain ⟨e1, e2⟩ := pRaw_eq hx h4 g1
    obtain ⟨hp, -⟩ := printLoop_text g2 g3 e2 (hj x i)
    have ih := printParams_render hx hj ps (i + 1) (fun q hq => hg q (List.mem_cons_of_mem _ hq)) (fun j hlt => by
      have := hr (j + 1) (by simp; omega)
      rw [show i + 1 + j = i + (j + 1) by omega]
      simpa using this)
    refine (Eventually.and hp ih).mono fun n hn => ?_
    obtain ⟨n1, n2⟩ := hn
    show f.writeParams v r x n (ps.length + 1) i = _
    rw [Img.writeParams, h1, Out.ok_bind]
    simp only
    rw [h2, Out.ok_bind, h3, Out.ok_bind, e1, Out.ok_bind, n1, Out.ok_bind, show ((i : Int) + 1) = ((i + 1 : Nat) : Int) by omega, n2, Out.ok_bind]
    rw [renderAttrs, show shown v.gm v.flt (attrData flt (pt p.1) p.2) = s by unfold shown; rw [g2]; rfl]
    rfl

mutual
theorem write_render {flt : CStr → List UInt8} {pt : BStr → XBT} {f : Img} {r : Rd} {v : DumpEnv} (hj : ∀ x i, (v.junk x i).length = 4097) : ∀ (e : Elem) (x : Int) (deep : Nat),
    Reads flt pt f r e x → AlignedItems f e x → Printable v.gm v.flt flt pt e → Eventually fun n => f.write v r n x deep = .ok (render flt pt (shown v.gm v.flt) e deep)
  | .mk name value params children, x, deep, hr, ha, hp => by
    unfold Reads at hr
    unfold AlignedItems at ha
    unfold Printable at hp
    obtain ⟨⟨id, r1, r2, -⟩, r3, r4, ⟨d, r5, r6⟩, r7, r8⟩ := hr
    obtain ⟨a1, a2⟩ := ha
    obtain ⟨-, -, p3, ⟨d', s, p4, p5, -, p6⟩, p7⟩ := hp
    rw [r5] at p4; injection p4 with p4; subst p4
    obtain ⟨l1, c, l2, l3⟩ := printLoop_text p5 p6 (rawValue_str r6) (hj x (-1))
    have w1 := printParams_render (r := r) a1 hj params 0 (fun p hp => by obtain ⟨-, q1, s, q2, -, -, q3⟩ := p3 p hp; exact ⟨q1, s, q2, q3⟩) (fun j h => by rw [Nat.zero_add]; exact r4 j h)
    have w2 := writeKids_render hj children x 0 (deep + 1) (by rw [r7]; simp) r8 a2 p7
    have w2 : Eventually fun n => f.writeKids (fun y => f.write v r n y (deep + 1)) x n ((0 : Nat) : Int) = .ok (renderAll flt pt (shown v.gm v.flt) children (deep + 1)) := by
      obtain ⟨n, hn⟩ := w2
      exact ⟨n, fun m hm => hn m m hm hm⟩
    refine (Eventually.and l1 (Eventually.and w1 w2)).succ fun n hn => ?_
    obtain ⟨n1, n2, n3⟩ := hn
    rw [Img.write, r1, Out.ok_bind, r2, Out.ok_bind, r3, Out.ok_bind]
    simp only [Int.toNat_natCast]
    rw [show (0 : Int) = ((0 : Nat) : Int) from rfl, n2, Out.ok_bind, r7, Out.ok_bind]
    have hsh : ((nodeData flt value).map (shown v.gm v.flt)).getD [] = s := by rw [r5]; unfold shown; simp [p5]
    unfold render
    rw [hsh]
    cases children with
    | nil =>
      simp only [List.length_nil]
      rw [if_neg (by omega), r6, Out.ok_bind, l2, Out.ok_bind]
      by_cases hs : s = []
      · rw [if_pos (l3.2 hs), if_pos hs]; simp
      · rw [if_neg (fun h => hs (l3.1 h)), if_neg hs, n1, Out.ok_bind]; simp
    | cons e es =>
      rw [if_pos (by simp only [List.length_cons]; omega), n3, Out.ok_bind, r6, Out.ok_bind, n1, Out.ok_bind]
      simp
theorem writeKids_render {flt : CStr → List UInt8} {pt : BStr → XBT} {f : Img} {r : Rd} {v : DumpEnv} (hj : ∀ x i, (v.junk x i).length = 4097) : ∀ (es : List Elem) (x : Int) (i deep : Nat),
    f.childcount x = .ok ((i + es.length : Nat) : Int) → ReadsAll flt pt f r es x i → AlignedAll f es x i → PrintableAll v.gm v.flt flt pt es →
    ∃ n, ∀ m k, n ≤ m → n ≤ k → f.writeKids (fun y => f.write v r m y deep) x k i = .ok (renderAll flt pt (shown v.gm v.flt) es deep)
  | [], x, i, deep, hc, _, _, _ => by
    refine ⟨1, fun m k _ hk => ?_⟩
    obtain ⟨k, rfl⟩ : ∃ j, k = j + 1 := ⟨k - 1, by omega⟩
    rw [Img.writeKids]
    unfold Img.getNextChild
    simp only
    rw [hc, Out.ok_bind, if_pos (by simp)]
    rfl
  | e :: es, x, i, deep, hc, hr, ha, hp => by
    unfold ReadsAll at hr
    unfold AlignedAll at ha
    unfold PrintableAll at hp
    obtain ⟨⟨y, h1, h2⟩, h3⟩ := hr
    have hy := ha.1 y h1
    have h9 : ∃ nm, f.name y = .ok nm ∧ nm ≠ -9 := by
      cases e with
      | mk name value params children =>
        unfold Reads at h2
        obtain ⟨⟨id, r1, r2, -⟩, -⟩ := h2
        refine ⟨id, r1, fun e => ?_⟩
        unfold Printable at hp
        subst e
        have : f.getSymbol r.tags (-9) = .ok (b8 "et-tecera") := rfl
        rw [this] at r2; injection r2 with r2
        exact hp.1.2.1 r2.symm
    obtain ⟨nm, n1, n2⟩ := h9
    have hn := Img.getNextChild_child (by omega) h1 n1 n2
    have w1 := write_render hj e y deep h2 hy hp.1
    have w2 := writeKids_render hj es x (i + 1) deep (by rw [hc]; congr 2; simp; omega) h3 ha.2 hp.2
    obtain ⟨a, w1⟩ := w1
    obtain ⟨b, w2⟩ := w2
    refine ⟨max a b + 1, fun m k hm hk => ?_⟩
    obtain ⟨k, rfl⟩ : ∃ j, k = j + 1 := ⟨k - 1, by omega⟩
    rw [Img.writeKids, hn, Out.ok_bind]
    simp only
    rw [w1 m (by omega), Out.ok_bind, show ((i : Int) + 1) = ((i + 1 : Nat) : Int) by omega, w2 m k (by omega) (by omega)]
    rw [renderAll]; rfl
end

/-! ### reading the text -/

theorem scan_append : ∀ {a b : CStr} {q q' q'' : TagAt} {ts us : List Tag}, Tag.scan q a = some (q', ts) → Tag.scan q' b = some (q'', us) → Tag.scan q (a ++ b) = some (q'', ts ++ us)
  | [], b, q, q', q'', ts, us, h, h' => by
    rw [Tag.scan] at h; cases h; simpa using h'
  | c :: a, b, q, q', q'', ts, us, h, h' => by
    rw [Tag.scan] at h
    show Tag.scan q (c :: (a ++ b)) = _
    rw [Tag.scan]
    cases hs : Tag.step q c with
    | none => rw [hs] at h; cases h
    | some r =>
      rw [hs] at h
      simp only [Option.map_eq_some_iff] at h ⊢
      obtain ⟨w, hw, he⟩ := h
      cases he
      exact ⟨_, scan_append (q' := w.1) (ts := w.2) hw h', by simp⟩

theorem scan_cons {c : Char} {b : CStr} {q q' q'' : TagAt} {ts us : List Tag} (h : Tag.step q c = some (q', ts)) (h' : Tag.scan q' b = some (q'', us)) : Tag.scan q (c :: b) = some (q'', ts ++ us) := by
  rw [Tag.scan, h]; simp [h']

theorem scan_text : ∀ {s : CStr}, '<' ∉ s → Tag.scan .text s = some (.text, [])
  | [], _ => rfl
  | c :: s, h => by
    have h1 : c ≠ '<' := fun e => h (by simp [e])
    exact scan_cons (q' := .text) (ts := []) (by simp [Tag.step, h1]) (scan_text fun hm => h (by simp [hm]))

theorem special_ne {c : Char} (h : special c = false) : c ≠ '<' ∧ c ≠ '>' ∧ c ≠ '/' ∧ c ≠ '=' ∧ c ≠ '"' ∧ c ≠ ' ' := by
  unfold special at h
  simp only [Bool.or_eq_false_iff, decide_eq_false_iff_not] at h
  obtain ⟨⟨⟨⟨⟨⟨⟨⟨h1, h2⟩, h3⟩, h4⟩, h5⟩, h6⟩, -⟩, -⟩, -⟩ := h
  exact ⟨h1, h2, h3, h4, h5, h6⟩

theorem scan_name : ∀ {s n : CStr}, (∀ c ∈ s, special c = false) → Tag.scan (.name n) s = some (.name (n ++ s), [])
  | [], n, _ => by simp [Tag.scan]
  | c :: s, n, h => by
    have h1 := h c (by simp)
    obtain ⟨-, h2, h3, -, -, h4⟩ := special_ne h1
    have := scan_name (s := s) (n := n ++ [c]) fun x hx => h x (by simp [hx])
    rw [show n ++ c :: s = n ++ [c] ++ s by simp]
    exact scan_cons (ts := []) (by simp [Tag.step, h1, h2, h3, h4]) this

theorem scan_attr : ∀ {s n : CStr} {as : List (CStr × CStr)} {a : CStr}, (∀ c ∈ s, special c = false) → Tag.scan (.attr n as a) s = some (.attr n as (a ++ s), [])
  | [], n, as, a, _ => by simp [Tag.scan]
  | c :: s, n, as, a, h => by
    have h1 := h c (by simp)
    obtain ⟨-, -, -, h2, -⟩ := special_ne h1
    have := scan_attr (s := s) (n := n) (as := as) (a := a ++ [c]) fun x hx => h x (by simp [hx])
    rw [show a ++ c :: s = a ++ [c] ++ s by simp]
    exact scan_cons (ts := []) (by simp [Tag.step, h1, h2]) this

theorem scan_value : ∀ {s n : CStr} {as : List (CStr × CStr)} {a v : CStr}, '"' ∉ s → '<' ∉ s → Tag.scan (.value n as a v) s = some (.value n as a (v ++ s), [])
  | [], n, as, a, v, _, _ => by simp [Tag.scan]
  | c :: s, n, as, a, v, h, h' => by
    have h1 : c ≠ '"' := fun e => h (by simp [e])
    have h2 : c ≠ '<' := fun e => h' (by simp [e])
    have := scan_value (s := s) (n := n) (as := as) (a := a) (v := v ++ [c]) (fun hx => h (by simp [hx])) (fun hx => h' (by simp [hx]))
    rw [show v ++ c :: s = v ++ [c] ++ s by simp]
    exact scan_cons (ts := []) (by simp [Tag.step, h1, h2]) this

theorem scan_close : ∀ {s n : CStr}, (∀ c ∈ s, special c = false) → Tag.scan (.close n) s = some (.close (n ++ s), [])
  | [], n, _ => by simp [Tag.scan]
  | c :: s, n, h => by
    have h1 := h c (by simp)
    obtain ⟨-, h2, -⟩ := special_ne h1
    have := scan_close (s := s) (n := n ++ [c]) fun x hx => h x (by simp [hx])
    rw [show n ++ c :: s = n ++ [c] ++ s by simp]
    exact scan_cons (ts := []) (by simp [Tag.step, h1, h2]) this

/-- in an opening tag after its name and some attributes -/
def inTag (n : CStr) (as : List (CStr × CStr)) : TagAt := if as = [] then .name n else .inside n as

theorem inTag_end (n : CStr) (as : List (CStr × CStr)) : Tag.step (inTag n as) '>' = some (.text, [.opened n as]) := by
  unfold inTag
  split
  · subst as; rfl
  · rfl

theorem inTag_slash (n : CStr) (as : List (CStr × CStr)) : Tag.step (inTag n as) '/' = some (.slash n as, []) := by
  unfold inTag
  split
  · subst as; rfl
  · rfl

theorem inTag_space (n : CStr) (as : List (CStr × CStr)) : Tag.step (inTag n as) ' ' = some (.attr n as [], []) := by
  unfold inTag
  split
  · subst as; rfl
  · rfl

theorem toC_ne {n : BStr} (h : n ≠ []) : toC n ≠ [] := by
  cases n with
  | nil => exact absurd rfl h
  | cons a b => intro e; simp [toC] at e

theorem scan_attrs {flt : CStr → List UInt8} {pt : BStr → XBT} {txt : Data → CStr} {n : CStr} : ∀ (ps : List (BStr × SVal)) (as : List (CStr × CStr)),
    (∀ p ∈ ps, GoodName p.1 ∧ '<' ∉ txt (attrData flt (pt p.1) p.2) ∧ '"' ∉ txt (attrData flt (pt p.1) p.2)) →
    Tag.scan (inTag n as) (renderAttrs flt pt txt ps) = some (inTag n (as ++ ps.map fun p => (toC p.1, txt (attrData flt (pt p.1) p.2))), [])
  | [], as, _ => by simp [renderAttrs, Tag.scan]
  | p :: ps, as, h => by
    obtain ⟨⟨g1, g2⟩, h2, h3⟩ := h p (by simp)
    have ih := scan_attrs (n := n) ps (as ++ [(toC p.1, txt (attrData flt (pt p.1) p.2))]) fun q hq => h q (by simp [hq])
    have hin : TagAt.inside n (as ++ [(toC p.1, txt (attrData flt (pt p.1) p.2))]) = inTag n (as ++ [(toC p.1, txt (attrData flt (pt p.1) p.2))]) := by simp [inTag]
    rw [renderAttrs]
    refine scan_append (ts := []) (q' := .value n as (toC p.1) (txt (attrData flt (pt p.1) p.2))) ?_ ?_
    · refine scan_append (ts := []) (us := []) (q' := .attr n as (toC p.1)) ?_ ?_
      · refine scan_cons (ts := []) (inTag_space n as) ?_
        have := scan_attr (n := n) (as := as) (a := []) g2
        simpa using this
      · refine scan_cons (ts := []) (q' := .eq n as (toC p.1)) (by simp [Tag.step, toC_ne g1]) (scan_cons (ts := []) (q' := .value n as (toC p.1) []) rfl ?_)
        have := scan_value (n := n) (as := as) (a := toC p.1) (v := []) h3 h2
        simpa using this
    · refine scan_cons (ts := []) (q' := .inside n (as ++ [(toC p.1, txt (attrData flt (pt p.1) p.2))])) rfl ?_
      rw [hin, ih]
      simp

theorem not_lt_tabs (deep : Nat) : '<' ∉ tabs deep := by
  unfold tabs
  rw [List.mem_replicate]
  rintro ⟨-, h⟩
  exact absurd h (by decide)

theorem scan_closing {n : BStr} (h : GoodName n) : Tag.scan .text ('<' :: '/' :: toC n ++ ['>', '\n']) = some (.text, [.closed (toC n)]) := by
  refine scan_cons (ts := []) (q' := .lt) rfl (scan_cons (ts := []) (q' := .close []) rfl ?_)
  refine scan_append (ts := []) (q' := .close (toC n)) (by simpa using scan_close (n := []) h.2) ?_
  refine scan_cons (ts := [.closed (toC n)]) (us := []) (q' := .text) (by simp [Tag.step, toC_ne h.1]) (by rfl)

theorem scan_opening {n : BStr} {ps : CStr} {as : List (CStr × CStr)} (h : GoodName n) (hp : Tag.scan (inTag (toC n) []) ps = some (inTag (toC n) as, [])) (deep : Nat) :
    Tag.scan .text (tabs deep ++ '<' :: toC n ++ ps) = some (inTag (toC n) as, []) := by
  refine scan_append (ts := []) (us := []) (q' := .name (toC n)) ?_ hp
  refine scan_append (ts := []) (us := []) (q' := .text) (scan_text (not_lt_tabs deep)) ?_
  refine scan_cons (ts := []) (q' := .lt) rfl ?_
  obtain ⟨h1, h2⟩ := h
  have hne := toC_ne h1
  revert h2 hne
  generalize toC n = w
  intro h2 hne
  cases w with
  | nil => exact absurd rfl hne
  | cons c w =>
    have hc := h2 c (by simp)
    obtain ⟨-, -, h3, -⟩ := special_ne hc
    exact scan_cons (ts := []) (q' := .name [c]) (by simp [Tag.step, hc, h3]) (by simpa using scan_name (n := [c]) fun x hx => h2 x (by simp [hx]))

mutual
theorem scan_render {gm : Gm} {fltText : List UInt8 → CStr} {flt : CStr → List UInt8} {pt : BStr → XBT} : ∀ (e : Elem) (deep : Nat), Printable gm fltText flt pt e →
    Tag.scan .text (render flt pt (shown gm fltText) e deep) = some (.text, docTags flt pt (shown gm fltText) e)
  | .mk name value params children, deep, hp => by
    unfold Printable at hp
    obtain ⟨p1, -, p3, ⟨d, s, p4, p5, p6, -⟩, p7⟩ := hp
    have hsh : ((nodeData flt value).map (shown gm fltText)).getD [] = s := by rw [p4]; unfold shown; simp [p5]
    have ha := scan_attrs (flt := flt) (pt := pt) (txt := shown gm fltText) (n := toC name) params [] fun p hp => by
      obtain ⟨q0, -, s, q2, q3, q4, -⟩ := p3 p hp
      have : shown gm fltText (attrData flt (pt p.1) p.2) = s := by unfold shown; rw [q2]; rfl
      rw [this]
      exact ⟨q0, q3, q4⟩
    rw [List.nil_append] at ha
    have ho := scan_opening p1 ha deep
    unfold render docTags
    rw [hsh]
    cases children with
    | nil =>
      simp only
      unfold docTagsAll
      refine scan_append (ts := []) ho ?_
      split
      · exact scan_cons (ts := []) (inTag_slash _ _) rfl
      · refine scan_append (ts := [_]) (us := [_]) (scan_cons (ts := [_]) (inTag_end _ _) (scan_text p6)) (scan_closing p1)
    | cons e es =>
      have ih := scan_renderAll (e :: es) (deep + 1) p7
      simp only
      refine scan_append (ts := []) ho ?_
      refine scan_append (ts := _ :: docTagsAll flt pt (shown gm fltText) (e :: es)) (us := [_]) (q' := .text) ?_ (scan_closing p1)
      rw [show ∀ a b c d : CStr, '>' :: '\n' :: a ++ b ++ c ++ '\n' :: d = ('>' :: '\n' :: a) ++ (b ++ c ++ '\n' :: d) by simp]
      rw [← List.append_nil (_ :: docTagsAll flt pt (shown gm fltText) (e :: es))]
      refine scan_append (q' := .text) ?_ (scan_text ?_)
      · exact scan_cons (ts := [_]) (inTag_end _ _) (scan_cons (ts := []) (q' := .text) rfl ih)
      · simp [not_lt_tabs, p6]
theorem scan_renderAll {gm : Gm} {fltText : List UInt8 → CStr} {flt : CStr → List UInt8} {pt : BStr → XBT} : ∀ (es : List Elem) (deep : Nat), PrintableAll gm fltText flt pt es →
    Tag.scan .text (renderAll flt pt (shown gm fltText) es deep) = some (.text, docTagsAll flt pt (shown gm fltText) es)
  | [], _, _ => by unfold renderAll docTagsAll; rfl
  | e :: es, deep, hp => by
    unfold PrintableAll at hp
    unfold renderAll docTagsAll
    exact scan_append (scan_render e deep hp.1) (scan_renderAll es deep hp.2)
end

mutual
theorem nested_docTags (flt : CStr → List UInt8) (pt : BStr → XBT) (txt : Data → CStr) : ∀ (e : Elem) (o : List CStr) (ts : List Tag), nested o (docTags flt pt txt e ++ ts) = nested o ts
  | .mk name value params children, o, ts => by
    unfold docTags
    rw [List.append_assoc, List.cons_append, nested, nested_docTagsAll flt pt txt children, List.cons_append, nested, List.nil_append]
    simp
theorem nested_docTagsAll (flt : CStr → List UInt8) (pt : BStr → XBT) (txt : Data → CStr) : ∀ (es : List Elem) (o : List CStr) (ts : List Tag), nested o (docTagsAll flt pt txt es ++ ts) = nested o ts
  | [], o, ts => by unfold docTagsAll; rfl
  | e :: es, o, ts => by
    unfold docTagsAll
    rw [List.append_assoc, nested_docTags flt pt txt e, nested_docTagsAll flt pt txt es]
end

/-! ### C54 -/

/-- C54: printing an item that reads as an element tree (with texts that need no escaping, see `Printable`) yields a text whose tags are exactly the tags of the tree, each element once and in
document order with its attributes and their values, and all properly nested — whatever was in the local buffers before. -/
theorem C54_tree_partial (flt : CStr → List UInt8) (pt : BStr → XBT) (f : Img) (r : Rd) (v : DumpEnv) (hj : ∀ x i, (v.junk x i).length = 4097) (e : Elem) (x : Int)
    (hr : Reads flt pt f r e x) (hl : Laid f e x) (hp : Printable v.gm v.flt flt pt e) (deep : Nat) :
    ∃ n out, (∀ fuel, n ≤ fuel → f.write v r fuel x deep = .ok out) ∧
      tagsOf out = some (docTags flt pt (fun d => (dataText v.gm v.flt d).getD []) e) ∧ nested [] (docTags flt pt (fun d => (dataText v.gm v.flt d).getD []) e) = true := by
  obtain ⟨n, hn⟩ := write_render hj e x deep hr (Laid.aligned e x hl) hp
  refine ⟨n, _, hn, ?_, ?_⟩
  · unfold tagsOf
    rw [scan_render e deep hp]
    rfl
  · have := nested_docTags flt pt (fun d => (dataText v.gm v.flt d).getD []) e [] []
    rw [List.append_nil] at this
    rw [this]
    rfl

/-- C54 for a document made by `Make_xb` and opened again -/
theorem C54_document_partial (flt : CStr → List UInt8) (hflt : ∀ s, (flt s).length = 4) (filename : BStr) (hfn : NoNul filename) (mtime : Int) (filesize : Nat)
    (hsz : 1024 + filesize * 4 < 2147483648) (m0 : Mem) (e : Elem) (f : Img) (h : makeXb flt filename mtime filesize m0 e = .ok f)
    (hroom : f.size < 1024 + filesize * 4) (hnames : NamesIn NoNul NoNul e) (htags : AtMost 32768 (tagOps e)) (hpars : AtMost 32768 (paramOps e))
    (hok : TreeOk (docAttrType e) e) (v : DumpEnv) (hj : ∀ x i, (v.junk x i).length = 4097) (hp : Printable v.gm v.flt flt (docAttrType e) e) (fuel : Nat) :
    ∃ r x n out, f.initialize (fuel + 1) = .ok r ∧ r.root = some x ∧ (∀ m, n ≤ m → f.write v r m x 0 = .ok out) ∧
      tagsOf out = some (docTags flt (docAttrType e) (fun d => (dataText v.gm v.flt d).getD []) e) ∧
      nested [] (docTags flt (docAttrType e) (fun d => (dataText v.gm v.flt d).getD []) e) = true := by
  obtain ⟨r, x, h1, h2, h3, h4⟩ := C28_document_partial flt hflt filename hfn mtime filesize hsz m0 e f h hroom hnames htags hpars hok fuel
  obtain ⟨n, out, h5, h6, h7⟩ := C54_tree_partial flt (docAttrType e) f r v hj e x h3 h4 hp 0
  exact ⟨r, x, n, out, h1, h2, h5, h6, h7⟩

/-- a C library for the examples, and buffers that contain a text from before -/
def envJ (j : CStr) : DumpEnv := ⟨fun _ => (0, 0, 0), fun _ => [], fun _ _ => j ++ List.replicate (4097 - j.length) '\x00'⟩

/-- the document of the packing example (for which the other hypotheses are shown there) can be printed -/
example : Printable (envJ []).gm (envJ []).flt (fun _ => [0,0,0,0]) (docAttrType exShared) exShared ∧ ∀ x i, ((envJ []).junk x i).length = 4097 := by
  refine ⟨?_, fun x i => by show (List.append [] (List.replicate (4097 - 0) _)).length = 4097; exact List.length_replicate ..⟩
  have t : ∀ d s, dataText (envJ []).gm (envJ []).flt d = some s → '<' ∉ s → '\x00' ∉ s → ∃ d' s', some d = some d' ∧ dataText (envJ []).gm (envJ []).flt d' = some s' ∧ '<' ∉ s' ∧ '\x00' ∉ s' :=
    fun d s h h1 h2 => ⟨d, s, rfl, h, h1, h2⟩
  have a : ∀ (q : XBT) (w : SVal) (s : CStr), dataText (envJ []).gm (envJ []).flt (attrData (fun _ => [0,0,0,0]) q w) = some s → '<' ∉ s → '"' ∉ s → '\x00' ∉ s →
      ∃ s, dataText (envJ []).gm (envJ []).flt (attrData (fun _ => [0,0,0,0]) q w) = some s ∧ '<' ∉ s ∧ '"' ∉ s ∧ '\x00' ∉ s := fun q w s h h1 h2 h3 => ⟨s, h, h1, h2, h3⟩
  have u : docAttrType exShared (b8 "id") = INT32 := by decide +kernel
  have g : GoodName (b8 "id") ∧ GoodName (b8 "item") ∧ GoodName (b8 "new") ∧ GoodName (b8 "order") ∧ GoodName (b8 "x") := by unfold GoodName; decide +kernel
  obtain ⟨g1, g2, g3, g4, g5⟩ := g
  have n1 : Printable (envJ []).gm (envJ []).flt (fun _ => [0,0,0,0]) (docAttrType exShared) exTwice := by
    simp only [exTwice, Printable, PrintableAll, List.mem_cons, List.not_mem_nil, or_false, forall_eq, false_implies, implies_true, and_true, true_and]
    refine ⟨g2, by decide +kernel, ⟨g1, by rw [u]; decide +kernel, ?_⟩, t _ "desk lamp".toList (by decide +kernel) (by decide) (by decide), g3, by decide +kernel, t _ [] (by decide +kernel) (by decide) (by decide)⟩
    rw [u]; exact a _ _ "18".toList (by decide +kernel) (by decide) (by decide) (by decide)
  simp only [exShared, Printable, PrintableAll, List.mem_cons, List.not_mem_nil, or_false, forall_eq, false_implies, implies_true, and_true, true_and]
  refine ⟨g4, by decide +kernel, ⟨g1, by rw [← exShared, u]; decide +kernel, ?_⟩, t _ "total: 12".toList (by decide +kernel) (by decide) (by decide), n1, ⟨g5, by decide +kernel, t _ [] (by decide +kernel) (by decide) (by decide)⟩, n1⟩
  rw [← exShared, u]; exact a _ _ "17".toList (by decide +kernel) (by decide) (by decide) (by decide)

/-! ### C54 in general is false -/

/-- a document converted, opened and printed -/
def dumpOf (j : CStr) (e : Elem) : Out CStr := do
  let f ← makeXb (fun _ => [0,0,0,0]) (b8 "f") 0 100 (fun _ => 0) e
  let r ← f.initialize 1
  match r.root with
  | none => .fail
  | some x => f.write (envJ j) r 10 x 0

/-- what it prints for the document of the example -/
example : dumpOf "old".toList exShared = .ok ("<order id=\"17\">\n\t<item id=\"18\">\n\t\t<new/>\n\tdesk lamp\n\t</item>\n\t<x/>\n\t<item id=\"18\">\n\t\t<new/>\n\tdesk lamp\n\t</item>\ntotal: 12\n</order>\n").toList := by
  decide +kernel

/-- C54 fails for a number of 64 bits: its text is not terminated, so the rest of the buffer is printed too, here a tag that is never closed -/
theorem C54_int64_false : dumpOf "??????????<b>".toList (.mk (b8 "a") (.text "5000000000".toList) [] []) = .ok "<a>5000000000<b></a>\n".toList ∧
    (tagsOf "<a>5000000000<b></a>\n".toList).map (nested []) = some false := by
  decide +kernel

/-- C54 fails for texts that contain `<` or `"`: they are printed as they are -/
theorem C54_escape_false : dumpOf [] (.mk (b8 "a") (.text "<b>".toList) [] []) = .ok "<a><b></a>\n".toList ∧ (tagsOf "<a><b></a>\n".toList).map (nested []) = some false ∧
    dumpOf [] (.mk (b8 "a") .none [(b8 "n", .text "x\"y".toList)] []) = .ok "<a n=\"x\"y\"/>\n".toList ∧ tagsOf "<a n=\"x\"y\"/>\n".toList = none := by
  decide +kernel

end BX
