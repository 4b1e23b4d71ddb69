import Verif.Lemmas.EditSet
import Verif.Props.Check
import Verif.Props.Dict
/-
Further results on C30, C35 and C39.
-/
namespace BX
open XBT Spec

/-! ### C35 -/

theorem allocGrow_ok {E : Env} (hp : E.plugin = true) (hE : ∀ n, E.trunc n = true) {P : Pool} (hP : PoolOk P) (hsm : P.mmapSize < 2147483648) (t : XBT) {n : Nat} (h0 : 0 < n)
    (room : P.alloc + n + 0x1010 ≤ P.mmapSize) : ∃ Q o, P.allocGrow E t n = .ok (Q, some o) ∧ o + n ≤ Q.fileSize ∧ P.alloc ≤ o := by
  have hl := hP.lim
  have hm := hP.map
  have hal := hP.al
  have hpg := hP.page
  have ha8 := aa8_ge P.alloc
  have ha8' := aa8_lt P.alloc
  have hn8 := aa8_lt n
  have hn4 := aa_lt n
  have hg4 := aa_ge n
  have hg8 := aa8_ge n
  have hmax : INT_MAX = 2147483647 := rfl
  unfold Pool.allocGrow Pool.allocFor
  split
  · by_cases hf : aa8 P.alloc + aa8 n ≤ P.limit
    · rw [allocate8_eq (by omega) (by omega) (by omega) (by omega) hf (by omega)]
      exact ⟨_, _, rfl, by simp only; omega, by omega⟩
    · rw [allocate8_none (by omega) (by omega) (by omega) (by omega) (by omega), Out.ok_bind]
      simp only
      rw [if_neg (by rw [hp]; simp)]
      unfold Pool.makeSpace
      simp only
      rw [if_neg (by omega), if_neg (by omega)]
      have e8 : aa8 (aa8 P.alloc) = aa8 P.alloc := by unfold aa8; omega
      have e9 : aa8 n ≤ (aa8 P.alloc + 4095 + n) / 4096 * 4096 - aa8 P.alloc := by unfold aa8; omega
      by_cases hfs : (aa8 P.alloc + 4095 + n) / 4096 * 4096 ≤ P.fileSize
      · rw [if_pos hfs, Out.ok_bind, if_neg (by simp), allocate8_eq h0 (by omega) (by simp only; omega) (by simp only; omega) (by simp only; omega) (by simp only; omega)]
        exact ⟨_, _, rfl, by simp only; omega, by simp only; omega⟩
      · rw [if_neg hfs, if_neg (by rw [hE]; simp), Out.ok_bind, if_neg (by simp), allocate8_eq h0 (by omega) (by simp only; omega) (by simp only; omega) (by simp only; omega) (by simp only; omega)]
        exact ⟨_, _, rfl, by simp only; omega, by simp only; omega⟩
  · by_cases hf : P.alloc + aa n ≤ P.limit
    · rw [allocate_eq (by omega) (by omega) (by omega) hf (by omega)]
      exact ⟨_, _, rfl, by simp only; omega, by omega⟩
    · rw [allocate_none (by omega) (by omega) (by omega), Out.ok_bind]
      simp only
      rw [if_neg (by rw [hp]; simp)]
      unfold Pool.makeSpace
      simp only
      rw [if_neg (by omega), if_neg (by omega)]
      have e9 : aa n ≤ (P.alloc + 4095 + n) / 4096 * 4096 - P.alloc := by unfold aa; omega
      by_cases hfs : (P.alloc + 4095 + n) / 4096 * 4096 ≤ P.fileSize
      · rw [if_pos hfs, Out.ok_bind, if_neg (by simp), allocate_eq h0 (by omega) (by simp only; omega) (by simp only; omega) (by simp only; omega)]
        exact ⟨_, _, rfl, by simp only; omega, by simp only; omega⟩
      · rw [if_neg hfs, if_neg (by rw [hE]; simp), Out.ok_bind, if_neg (by simp), allocate_eq h0 (by omega) (by simp only; omega) (by simp only; omega) (by simp only; omega)]
        exact ⟨_, _, rfl, by simp only; omega, by simp only; omega⟩

/-- an element for which there is memory is made -/
theorem make_alloc {E : Env} {P Q : Pool} {o : Nat} {id : Int} {t : XBT} {size off : Nat} {fl : UInt8} {bs : List UInt8} (h0 : 0 ≤ size2 t size)
    (hv : isVarsize t = true → 4 ≤ size2 t size) (hb : off + bs.length ≤ (size2 t size).toNat) (hQ : P.allocGrow E t (24 + (size2 t size).toNat) = .ok (Q, some o))
    (ho : o + (24 + (size2 t size).toNat) ≤ Q.fileSize) : ∃ R, P.make E id t size fl off bs = .ok (R, some o) := by
  unfold Pool.make Pool.newElement
  rw [if_neg (by omega), hQ]
  simp only [Out.ok_bind]
  rw [Pool.wr_eq (a := o + 7) (by simp; omega) _ (by omega), Out.ok_bind, Pool.wr_eq (a := o + 12) (by simp; omega) _ (by omega), Out.ok_bind,
    Pool.wr_eq (a := o + 8) (by simp; omega) _ (by omega), Out.ok_bind, Pool.wr_eq (a := o) (by simp; omega) _ (by omega), Out.ok_bind]
  by_cases hvz : isVarsize t = true
  · have := hv hvz
    rw [if_pos hvz, Pool.wr_eq (a := o + 24) (by simp; omega) _ (by omega)]
    simp only [Out.ok_bind, Out.pure_eq]
    unfold Pool.initElem
    rw [Pool.wr_eq (a := o) (by simp [leN_length]; omega) _ (by omega), Out.ok_bind, Pool.wr_eq (a := o + 24 + off) (by simp only; omega) _ (by omega)]
    exact ⟨_, rfl⟩
  · rw [if_neg hvz]
    simp only [Out.ok_bind, Out.pure_eq]
    unfold Pool.initElem
    rw [Pool.wr_eq (a := o) (by simp [leN_length]; omega) _ (by omega), Out.ok_bind, Pool.wr_eq (a := o + 24 + off) (by simp only; omega) _ (by omega)]
    exact ⟨_, rfl⟩

/-- C35: the file grows when it has to. After any history of a writable document, a value of any type and of any size is stored in a new element as long
as the mapping has room for it, when the file may grow (`ftruncate` succeeds, and the plugin of the document is found). -/
theorem C35_grows (E : Env) (hp : E.plugin = true) (hE : ∀ n, E.trunc n = true) (maxSize : Nat) (h1 : 0x4000 ≤ maxSize) (h2 : maxSize < 2147483648) (P : Pool) (D : Doc) (h : Sess E maxSize P D)
    (b : Bool) (id : Int) (t : XBT) (size : Nat) (bs : List UInt8) (h0 : 0 ≤ size2 t size) (hl : (sizeField t 0).length + bs.length = (size2 t size).toNat)
    (room : P.alloc + 24 + (size2 t size).toNat + 0x1010 ≤ P.mmapSize) :
    ∃ Q o, P.make E id t size (tagFlag b) (sizeField t 0).length bs = .ok (Q, some o) := by
  obtain ⟨els, V, fl, k⟩ := sess_keeps h1 h2 h
  obtain ⟨Q, o, q1, q2, -⟩ := allocGrow_ok hp hE k.sees.ok k.sees.small t (n := 24 + (size2 t size).toNat) (by omega) (by omega)
  obtain ⟨R, hR⟩ := make_alloc (id := id) (fl := tagFlag b) (off := (sizeField t 0).length) (bs := bs) h0 (fun hv => by
    have : (sizeField t 0).length = 4 := by unfold sizeField; rw [if_pos hv]; simp
    omega) (by omega) q1 q2
  exact ⟨R, o, hR⟩

/-- a text of 50000 characters in a fresh document, whose file has 16384 bytes -/
example : ∃ Q o, (Pool.empty 0x20000).make demoEnv 0 STRING 50000 (tagFlag true) (sizeField STRING 0).length (List.replicate 50000 65 ++ [0]) = .ok (Q, some o) :=
  C35_grows demoEnv rfl (fun _ => rfl) 0x20000 (by decide) (by decide) _ _ Sess.start true 0 STRING 50000 _ (by decide) (by rw [show (sizeField STRING 0).length = 0 from rfl, List.length_append, List.length_replicate]; rfl) (by decide)

/-! ### C39 -/

/-- C39 is false in general when the tags do not come first: if the names of the tags begin where the cleared document will have its names, but not
at their very beginning, `Clear` never succeeds. The copy of the attribute names that it makes in this case does not help: the place they are
moved to is compared with the old place of the tags. -/
theorem C39_moved_false (E : Env) (maxSize : Nat) (h1 : 0x4000 ≤ maxSize) (h2 : maxSize < 2147483648) (P Q : Pool) (D : Doc) (h : Sess E maxSize P D)
    (ht : poolHeader < P.tags.names) (ht' : P.tags.names < poolHeader + symsLen (D.syms true) + symsLen (D.syms false)) (r : Bool) (hc : P.clear = .ok (Q, r)) : r = false := by
  obtain ⟨els, V, fl, k⟩ := sess_keeps h1 h2 h
  have hP := k.sees.ok
  have hP0 : PoolOk { P with root := 0 } := by obtain ⟨a, b, c, d, e, f⟩ := hP; exact ⟨a, b, c, d, e, f⟩
  have ht0 : TabOk { P with root := 0 } P.tags (D.syms true) := (k.tabs true).frame (Nat.le_refl _) fun _ _ => rfl
  have hp0 : TabOk { P with root := 0 } P.params (D.syms false) := (k.tabs false).frame (Nat.le_refl _) fun _ _ => rfl
  have hn := ((k.tabs true).names (show P.tags.names ≠ 0 by omega)).2.2.1
  have hn' : P.tags.names + symsLen (D.syms true) ≤ P.alloc := hn
  unfold Pool.clear at hc
  simp only at hc
  rw [namesSize_ok hP0 ht0, Out.ok_bind] at hc
  simp only at hc
  rw [namesSize_ok (P := { P with root := 0 }) hP0 hp0, Out.ok_bind] at hc
  simp only at hc
  obtain ⟨⟨U, ps⟩, c1, hc⟩ := Out.bind_eq_ok hc
  unfold Pool.clearSave at c1
  rw [if_pos (by simp only; omega)] at c1
  obtain ⟨⟨U1, o⟩, c2, c1⟩ := Out.bind_eq_ok c1
  have hps : ∀ q, ps = some q → P.alloc ≤ q := by
    intro q hq
    rcases allocate_spec (by exact hP0) c2 with ⟨rfl, -⟩ | ⟨o', rfl, a2, -⟩
    · simp only [Out.pure_eq, Out.ok.injEq, Prod.mk.injEq] at c1
      rw [← c1.2] at hq; cases hq
    · simp only at c1
      obtain ⟨U2, -, c1⟩ := Out.bind_eq_ok c1
      simp only [Out.pure_eq, Out.ok.injEq, Prod.mk.injEq] at c1
      rw [← c1.2] at hq; cases hq
      rw [a2]
      exact Nat.le_refl _
  cases ps with
  | none =>
    simp only [Out.pure_eq, Out.ok.injEq, Prod.mk.injEq] at hc
    exact hc.2.symm
  | some q =>
    have hq := hps q rfl
    simp only at hc
    obtain ⟨⟨V, v⟩, -, hc⟩ := Out.bind_eq_ok hc
    cases v with
    | false =>
      simp only [if_true, Out.pure_eq, Out.ok.injEq, Prod.mk.injEq] at hc
      exact hc.2.symm
    | true =>
      rw [if_neg (by simp)] at hc
      unfold Pool.clearMove at hc
      rw [if_neg (by omega), if_neg (by omega)] at hc
      simp only [Out.pure_eq, Out.ok_bind, if_true, Out.ok.injEq, Prod.mk.injEq] at hc
      exact hc.2.symm

/-- two tags with an attribute registered between them are enough -/
def late1 : Pool := poolOfReg ((Pool.empty 0x8000).register true (b8 "person") NULL)
def late2 : Pool := poolOfReg (late1.register false (b8 "id") INT32)
def late3 : Pool := poolOfReg (late2.register true (b8 "car") NULL)

theorem late_sess : ∃ D, Sess demoEnv 0x8000 late3 D ∧ D.syms true = [⟨b8 "person", NULL⟩, ⟨b8 "car", NULL⟩] ∧ D.syms false = [⟨b8 "id", INT32⟩] := by
  have r1 : (Pool.empty 0x8000).register true (b8 "person") NULL = .ok (late1, 0) := poolOfReg_eq (by decide +kernel)
  have r2 : late1.register false (b8 "id") INT32 = .ok (late2, 0) := poolOfReg_eq (by decide +kernel)
  have r3 : late2.register true (b8 "car") NULL = .ok (late3, 1) := poolOfReg_eq (by decide +kernel)
  have s1 := Sess.registered (E := demoEnv) (maxSize := 0x8000) Sess.start (by decide) (by decide) (Or.inl (by decide)) r1 (by decide)
  have s2 := Sess.registered s1 (by decide) (by decide) (Or.inl (by decide)) r2 (by decide)
  exact ⟨_, Sess.registered s2 (by decide) (by decide) (Or.inl (by decide)) r3 (by decide), rfl, rfl⟩

example : ∃ Q, late3.clear = .ok (Q, false) := by
  obtain ⟨D, h, a1, a2⟩ := late_sess
  have hc : (match late3.clear with | .ok _ => true | _ => false) = true := by decide +kernel
  match he : late3.clear with
  | .ok (Q, r) => exact ⟨Q, by rw [C39_moved_false demoEnv 0x8000 (by decide) (by decide) _ Q D h (by decide +kernel) (by rw [a1, a2]; decide +kernel) r he]⟩
  | .fail => rw [he] at hc; cases hc
  | .ub => rw [he] at hc; cases hc

/-! ### C30 -/

/-- the value of an attribute of type code `c` whose reference is `d` lies inside the item at `x` with length `len`: the type is one that is stored in
this way, a text ends inside of the item, and the bytes of the other types fit -/
def ValueInside (f : Img) (x len : Int) (c : UInt8) (d : Int) : Prop :=
  0 ≤ d ∧
  ((c = STRING.code ∧ ∃ s, f.str (x + d) = .ok s ∧ d + s.length < len) ∨
  ((c = INT64.code ∨ c = UINT64.code ∨ c = UNIX_TIME64_MSEC.code ∨ c = DOUBLE.code) ∧ d + 8 ≤ len) ∨
  (c = SHA1.code ∧ d + 20 ≤ len) ∨ (c = GUID.code ∧ d + 16 ≤ len) ∨ (c = IPv6.code ∧ d + 16 ≤ len))

theorem toU32_le {len d : Int} {n : Int} (h0 : 0 ≤ len) (h : d + n ≤ toU 32 len) : d + n ≤ len := by
  unfold toU at h
  have h1 : ((2 ^ 32 : Nat) : Int) = 4294967296 := rfl
  rw [h1] at h
  omega

set_option maxHeartbeats 2000000 in
theorem checkParams_value {f : Img} {x len pcount : Int} : ∀ (n : Nat) (p : Int) (i : Nat), i < n → (∀ j : Nat, j < i → ∃ c, f.pType (p + 8 * j) = .ok c ∧ c ∈ inlineCodes) →
    ∀ c, f.pType (p + 8 * i) = .ok c → c ∉ inlineCodes → ∀ r, f.checkParams x len pcount n p = .ok r → r ≠ some false →
    ∃ d, f.pData (p + 8 * i) = .ok d ∧ ValueInside f x len c d
  | 0, _, _, hi, _, _, _, _, _, _, _ => absurd hi (by omega)
  | n+1, p, i, hi, hin, c, hc, hn, r, h, hr => by
    unfold Img.checkParams at h
    obtain ⟨nm, hnm, h⟩ := Out.bind_eq_ok h
    obtain ⟨c1, hc1, h⟩ := Out.bind_eq_ok h
    split at h
    · cases h; exact absurd rfl hr
    split at h
    · cases h; exact absurd rfl hr
    split at h
    · cases h; exact absurd rfl hr
    cases i with
    | succ i =>
      obtain ⟨c', hc', hmem⟩ := hin 0 (by omega)
      simp only [Int.natCast_zero, Int.mul_zero, Int.add_zero] at hc'
      rw [hc1] at hc'
      cases hc'
      rw [if_pos hmem] at h
      have e : ∀ i : Nat, p + 8 * ((i + 1 : Nat) : Int) = p + 8 + 8 * (i : Int) := by intro i; omega
      rw [e] at hc ⊢
      exact checkParams_value n (p + 8) i (by omega) (fun j hj => by rw [← e j]; exact hin (j + 1) (by omega)) c hc hn r h hr
    | zero =>
      simp only [Int.natCast_zero, Int.mul_zero, Int.add_zero] at hc ⊢
      rw [hc1] at hc
      cases hc
      rw [if_neg hn] at h
      obtain ⟨d, hd, h⟩ := Out.bind_eq_ok h
      refine ⟨d, hd, ?_⟩
      split at h
      · cases h; exact absurd rfl hr
      split at h
      · cases h; exact absurd rfl hr
      have htrue : ∀ {b : Bool}, (return some b : Out (Option Bool)) = .ok r → b = true := by
        intro b hb
        cases b with
        | true => rfl
        | false => cases hb; exact absurd rfl hr
      refine ⟨by omega, ?_⟩
      split at h
      · next hs =>
        obtain ⟨k, hk, h⟩ := Out.bind_eq_ok h
        have hlt := of_decide_eq_true (htrue h)
        obtain ⟨s, s1, s2, -⟩ := Img.strnlen_str hk (by omega)
        exact Or.inl ⟨hs, s, s1, by omega⟩
      split at h
      · next hs => exact Or.inr (Or.inl ⟨hs, toU32_le (by omega) (of_decide_eq_true (htrue h))⟩)
      split at h
      · next hs =>
        have := toU32_le (n := 24) (by omega) (of_decide_eq_true (htrue h))
        exact Or.inr (Or.inr (Or.inl ⟨hs, by omega⟩))
      split at h
      · next hs => exact Or.inr (Or.inr (Or.inr (Or.inl ⟨hs, toU32_le (by omega) (of_decide_eq_true (htrue h))⟩)))
      split at h
      · next hs => exact Or.inr (Or.inr (Or.inr (Or.inr ⟨hs, toU32_le (by omega) (of_decide_eq_true (htrue h))⟩)))
      · cases h; exact absurd rfl hr

/-- C30: if the check accepts an item, the first of its attributes that has a value outside of its description has this value inside the item, hence inside
the file: texts end in it, numbers, digests and addresses fit. What is missing: the check ends there and says nothing about later attributes
and about children (`C30_references_false`). -/
theorem C30_values_partial (f : Img) (tcount pcount : Int) (recursive : Bool) (fuel : Nat) (x : Int) (h : f.check tcount pcount recursive fuel x = .ok true) (pc : Int) (hpc : f.paramcount x = .ok pc)
    (i : Nat) (hi : (i : Int) < pc) (hin : ∀ j : Nat, j < i → ∃ c, f.pType (x + 12 + 8 * j) = .ok c ∧ c ∈ inlineCodes) (c : UInt8) (hc : f.pType (x + 12 + 8 * i) = .ok c) (hn : c ∉ inlineCodes) :
    ∃ d len, f.pData (x + 12 + 8 * i) = .ok d ∧ f.length x = .ok len ∧ x + len ≤ f.size ∧ ValueInside f x len c d := by
  cases fuel with
  | zero => unfold Img.check at h; cases h
  | succ fuel =>
    unfold Img.check at h
    split at h
    · cases h
    split at h
    · cases h
    obtain ⟨len, hlen, h⟩ := Out.bind_eq_ok h
    split at h
    · cases h
    split at h
    · cases h
    obtain ⟨nm, hnm, h⟩ := Out.bind_eq_ok h
    obtain ⟨pc', hpc', h⟩ := Out.bind_eq_ok h
    rw [hpc] at hpc'
    cases hpc'
    obtain ⟨cc, hcc, h⟩ := Out.bind_eq_ok h
    split at h
    · cases h
    split at h
    · cases h
    split at h
    · cases h
    obtain ⟨r, hr, h⟩ := Out.bind_eq_ok h
    have hr' : r ≠ some false := by rintro rfl; cases h
    obtain ⟨d, d1, d2⟩ := checkParams_value pc.toNat (x + 12) i (by omega) hin c hc hn r hr hr'
    exact ⟨d, len, d1, hlen, by omega, d2⟩

/-- the root item of the example file: its second attribute is a text, which ends inside of it -/
example : ∃ f d len, exFile = .ok f ∧ f.check 0 0 false 10 0 = .ok true ∧ f.pData 20 = .ok d ∧ f.length 0 = .ok len ∧ ValueInside f 0 len STRING.code d := by
  have hc : (do let f ← exFile
                let a ← f.check 0 0 false 10 0
                let pc ← f.paramcount 0
                let c0 ← f.pType 12
                let c ← f.pType 20
                return (a, pc, c0, c)) = Out.ok (true, 4, INT32.code, STRING.code) := by decide +kernel
  obtain ⟨f, h1, hc⟩ := Out.bind_eq_ok hc
  obtain ⟨a, h2, hc⟩ := Out.bind_eq_ok hc
  obtain ⟨pc, h3, hc⟩ := Out.bind_eq_ok hc
  obtain ⟨c0, h5, hc⟩ := Out.bind_eq_ok hc
  obtain ⟨c, h4, hc⟩ := Out.bind_eq_ok hc
  simp only [Out.pure_eq, Out.ok.injEq, Prod.mk.injEq] at hc
  obtain ⟨rfl, rfl, rfl, rfl⟩ := hc
  obtain ⟨d, len, k1, k2, -, k3⟩ := C30_values_partial f 0 0 false 10 0 h2 4 h3 1 (by decide) (fun j hj => ⟨INT32.code, by
    have : j = 0 := by omega
    subst this
    exact h5, by decide⟩) STRING.code h4 (by decide)
  exact ⟨f, d, len, h1, h2, k1, k2, k3⟩

end BX
