import Verif.Spec.Files
/-
C79: loading files and visiting directories.
-/
namespace BX
open Spec

/-- C79: `ReadFile` gives memory exactly if the file was opened, has a size greater than zero and was read in one piece; the memory holds as much of the content as `fstat` said, and a
terminating zero, and the stored size is the number of bytes in front of it. (The content is that at the time of `read`: it may have grown since `fstat`.) -/
theorem C79_read_partial (k : Kernel) (content : List UInt8) (hk : ReadsFile k content) (fds : List Nat) (d : List UInt8) :
    (readFile k fds).data = some d ↔ k.opens = true ∧ ∃ n : Nat, 0 < n ∧ k.stat = .file n ∧ k.read n = some (content.take n) ∧ n ≤ content.length ∧ d = content.take n ++ [0] ∧ (readFile k fds).size = some (n : Int) := by
  unfold readFile
  by_cases ho : k.opens = true
  · simp only [ho, not_true_eq_false, if_false, true_and]
    constructor
    · intro h
      split at h
      · rename_i hs
        cases hst : k.stat with
        | err => rw [hst] at hs; simp [fileGetSize] at hs
        | dir n => rw [hst] at hs; simp [fileGetSize] at hs
        | file m =>
          have e : fileGetSize k.stat = m := by rw [hst]; rfl
          rw [e] at hs h
          obtain ⟨n, rfl⟩ : ∃ n : Nat, m = n := ⟨m.toNat, by omega⟩
          rw [show fileGetSize (.file (n : Int)) = n from rfl]
          rw [Int.toNat_natCast] at h
          cases hr : k.read n with
          | none => rw [hr] at h; cases h
          | some bs =>
            rw [hr] at h
            simp only at h
            split at h
            · cases h
            · rename_i hl
              obtain ⟨h1, h2, h3, h4⟩ := hk n bs hr
              have hn : bs.length = n := by omega
              refine ⟨n, by omega, rfl, ?_, by omega, ?_, ?_⟩
              · rw [hr, ← hn, ← h1]
              · rw [← hn, ← h1]; exact (Option.some.inj h).symm
              · congr 1
                unfold ofU
                rw [if_pos (by omega)]
                omega
      · cases h
    · rintro ⟨n, h1, h2, h3, h4, rfl, -⟩
      have e : fileGetSize k.stat = n := by rw [h2]; rfl
      rw [e, Int.toNat_natCast, if_pos (by omega), h3]
      simp only [List.length_take]
      rw [if_neg (by omega)]
  · simp [ho]

/-- C79: a file that is not read leaves the null pointer, whatever the reason. -/
theorem C79_read_null (k : Kernel) (fds : List Nat) (h : k.opens = false ∨ k.stat = .err ∨ (∃ n, k.stat = .dir n) ∨ (∃ n, k.stat = .file n ∧ (n ≤ 0 ∨ k.read n.toNat = none ∨ ∃ bs, k.read n.toNat = some bs ∧ (bs.length : Int) < n))) :
    (readFile k fds).data = none := by
  unfold readFile
  split
  · rfl
  · rename_i ho
    simp only
    rcases h with h | h | ⟨n, h⟩ | ⟨n, h, h2⟩
    · exact absurd h (by simpa using ho)
    · rw [h]; rfl
    · rw [h]; rfl
    · have e : fileGetSize k.stat = n := by rw [h]; rfl
      rw [e]
      split
      · rcases h2 with h2 | h2 | ⟨bs, h2, h3⟩
        · omega
        · rw [h2]
        · rw [h2]; simp only; rw [if_pos h3]
      · rfl

/-- C79: `file_get_contents` puts the beginning of the file to the buffer and zeros behind it, and gives the number of bytes that are not filled; on failure all are zeros. -/
theorem C79_contents (k : Kernel) (content : List UInt8) (hk : ReadsFile k content) (size : Nat) (fds : List Nat) :
    (fileGetContents k size fds).2.1.length = size ∧
    ((fileGetContents k size fds).1 = -1 ∧ (fileGetContents k size fds).2.1 = List.replicate size 0 ∨
      ∃ n ≤ size, (fileGetContents k size fds).1 = (n : Int) ∧ k.read size = some (content.take n) ∧ n ≤ content.length ∧ (fileGetContents k size fds).2.1 = content.take n ++ List.replicate (size - n) 0) := by
  unfold fileGetContents
  split
  · exact ⟨List.length_replicate, Or.inl ⟨rfl, rfl⟩⟩
  · cases hr : k.read size with
    | none => exact ⟨List.length_replicate, Or.inl ⟨rfl, rfl⟩⟩
    | some bs =>
      obtain ⟨h1, h2, h3, h4⟩ := hk size bs hr
      refine ⟨by simp only [List.length_append, List.length_drop, List.length_replicate]; omega, Or.inr ⟨bs.length, h2, rfl, by rw [← h1], h4, ?_⟩⟩
      simp only [List.drop_replicate]
      rw [← h1]

/-- C79: reading leaves no descriptor open. -/
theorem C79_closed (k : Kernel) (size : Nat) (fds : List Nat) : (readFile k fds).fds = fds ∧ (fileGetContents k size fds).2.2 = fds := by
  constructor
  · unfold readFile; split <;> simp
  · unfold fileGetContents
    split
    · rfl
    · split <;> simp

/-- C79: a file exists for `file_exists` exactly if `stat` finds it; only the names "" and "???" are refused. -/
theorem C79_exists (f : CStr) (stat : CStr → StatAns) (h : f ≠ [] ∧ f ≠ "???".toList) : (fileExists (some f) stat = true ↔ stat f ≠ .err) ∧ fileExists none stat = false := by
  unfold fileExists
  simp only [if_neg h.1, if_neg h.2]
  simp

/-- C79: sizes and times that are not negative are those that `stat` gives; -1 is given for a missing file. `FileGetSize` refuses directories. -/
theorem C79_stat (a : StatAns) (f : CStr) (mtime : CStr → Option Int) :
    (∀ n, a = .file n → fileGetSize a = n ∧ fileGetsize a = n) ∧ (a = .err → fileGetSize a = -1 ∧ fileGetsize a = -1) ∧ (∀ n, a = .dir n → fileGetSize a = -1 ∧ fileGetsize a = n) ∧
    (∀ t, f ≠ [] → mtime f = some t → fileGettime (some f) mtime = t) ∧ (mtime f = none → fileGettime (some f) mtime = -1) := by
  refine ⟨?_, ?_, ?_, ?_, ?_⟩
  · rintro n rfl; exact ⟨rfl, rfl⟩
  · rintro rfl; exact ⟨rfl, rfl⟩
  · rintro n rfl; exact ⟨rfl, rfl⟩
  · intro t h1 h2; simp [fileGettime, h1, h2]
  · intro h; simp [fileGettime, h]

/-- C79: a shared file keeps a descriptor open only if the caller asks for it, and `CloseSharedFile` closes it unless its number is 0. -/
theorem C79_share_partial (k : Kernel) (fds : List Nat) : (shareFile k false fds).2 = (none, fds) ∧
    ((shareFile k true fds).1 = false → (shareFile k true fds).2 = (none, fds)) ∧
    ((shareFile k true fds).1 = true → (shareFile k true fds).2 = (some k.fd, k.fd :: fds) ∧ (k.fd ≠ 0 → closeSharedFile k.fd (shareFile k true fds).2.2 = fds)) := by
  unfold shareFile closeSharedFile
  cases k.opens <;> cases k.maps <;> simp

/-- C79: a text that was written with success is in the file, nothing else is, and no descriptor stays open. -/
theorem C79_write (k : WriteKernel) (text old : List UInt8) (fds : List Nat) (hk : k.opens = true → k.prints = true → k.closes = true → ∀ t, k.got t = t) :
    (writeToFile k text old fds).1 = true → (writeToFile k text old fds).2 = (text, fds) := by
  unfold writeToFile
  revert hk
  cases k.opens <;> cases k.prints <;> cases k.closes <;> simp
  intro h; exact h text

theorem skipEntry_iff {n : CStr} (h0 : '\x00' ∉ n) : skipEntry n = !(n != ['.'] && n != ['.', '.']) := by
  have cnt : ∀ {i : Nat} {c : Char}, c ≠ '\x00' → (cAt n i = c ↔ n[i]? = some c) := by
    intro i c hc
    unfold cAt
    cases h : n[i]? with
    | none => simp [List.getD, h]; exact fun e => hc e.symm
    | some d => simp [List.getD, h]
  match n with
  | [] => rfl
  | [a] =>
    by_cases h : a = '.'
    · subst h; rfl
    · simp [skipEntry, cAt, h]
  | [a, b] =>
    by_cases h : a = '.'
    · subst h
      have hb : b ≠ '\x00' := by rintro rfl; simp at h0
      by_cases h2 : b = '.'
      · subst h2; rfl
      · simp [skipEntry, cAt, h2, hb]
    · simp [skipEntry, cAt, h]
  | a :: b :: c :: r =>
    have hb : b ≠ '\x00' := by rintro rfl; simp at h0
    have hc : c ≠ '\x00' := by rintro rfl; simp at h0
    simp [skipEntry, cAt, hb, hc]

/-- every list of entries has a visit -/
theorem visited_total (onFile : σ → CStr → σ × Bool × Int) (ns : List CStr) : ∀ s, ∃ s' o, Visited onFile s ns s' o := by
  induction ns with
  | nil => intro s; exact ⟨s, none, .all s⟩
  | cons n ns ih =>
    intro s
    rcases h : onFile s n with ⟨s', b, e⟩
    cases b with
    | false => exact ⟨s', some e, .stop h⟩
    | true =>
      obtain ⟨s'', o, h'⟩ := ih s'
      exact ⟨s'', o, .go h h'⟩

theorem scanDirLoop_visit (k : DirKernel) (onFile : σ → CStr → σ × Bool × Int) (names : List CStr) (hn : ∀ n ∈ names, '\x00' ∉ n) :
    ∀ s s' o, Visited onFile s (entries names) s' o → scanDirLoop k.endErrno onFile s names = (s', o.getD k.endErrno) := by
  induction names with
  | nil => intro s s' o h; cases h; rfl
  | cons n ns ih =>
    intro s s' o h
    have hs := skipEntry_iff (hn n (by simp))
    rw [scanDirLoop]
    have hf : entries (n :: ns) = if (n != ['.'] && n != ['.', '.']) = true then n :: entries ns else entries ns := by unfold entries; rw [List.filter_cons]
    cases hb : (n != ['.'] && n != ['.', '.']) with
    | false =>
      rw [hb] at hs hf
      rw [hs, if_pos (by decide)]
      rw [hf] at h
      exact ih (fun x hx => hn x (by simp [hx])) s s' o (by simpa using h)
    | true =>
      rw [hb] at hs hf
      rw [hs, if_neg (by decide)]
      rw [hf, if_pos rfl] at h
      cases h with
      | stop h => simp [h]
      | go h h' => simp only [h]; simpa using ih (fun x hx => hn x (by simp [hx])) _ s' o h'

/-- C79: `scan_dir` calls the function for every entry of the directory but "." and "..", each once and in order, up to the first that it answers false for; the state of the caller is
that after these calls. It answers true and closes the directory if all went well: the entries were all read, or the function stopped the visit with `errno` zero. -/
theorem C79_dir_partial (k : DirKernel) (onFile : σ → CStr → σ × Bool × Int) (s : σ) (fds : List Nat) (ho : k.opens = true) (hn : ∀ n ∈ k.names, '\x00' ∉ n) :
    ∃ s' o, Visited onFile s (entries k.names) s' o ∧ (scanDir k onFile s fds).1 = s' ∧
      ((scanDir k onFile s fds).2 = if o.getD k.endErrno = 0 then (k.closes, fds) else (false, k.fd :: fds)) := by
  obtain ⟨s', o, h⟩ := visited_total onFile (entries k.names) s
  refine ⟨s', o, h, ?_⟩
  unfold scanDir
  rw [scanDirLoop_visit k onFile k.names hn s s' o h]
  simp only [ho, not_true_eq_false, if_false]
  by_cases he : o.getD k.endErrno = 0
  · simp only [he, not_true_eq_false, ne_eq, if_false, if_true]
    cases k.closes <;> simp
  · simp [he]

/-- C79: a directory that is not opened is not visited. -/
theorem C79_dir_missing (k : DirKernel) (onFile : σ → CStr → σ × Bool × Int) (s : σ) (fds : List Nat) (ho : k.opens = false) : scanDir k onFile s fds = (s, false, fds) := by
  unfold scanDir; simp [ho]

/-- C79 is false for a visit that the function ends itself with `errno` set by any call in it: the result is false and the directory stays open, whatever it contains. -/
theorem C79_dir_stop_false (k : DirKernel) (onFile : σ → CStr → σ × Bool × Int) (s s' : σ) (e : Int) (fds : List Nat) (ho : k.opens = true) (hn : ∀ n ∈ k.names, '\x00' ∉ n)
    (h : Visited onFile s (entries k.names) s' (some e)) (he : e ≠ 0) : scanDir k onFile s fds = (s', false, k.fd :: fds) := by
  unfold scanDir
  rw [scanDirLoop_visit k onFile k.names hn s s' _ h]
  simp [ho, he]

/-- C79 is false for an empty file: it is read as if it were missing (only the stored size tells). -/
theorem C79_empty_false (k : Kernel) (fds : List Nat) (ho : k.opens = true) (h : k.stat = .file 0) : (readFile k fds).data = none ∧ (readFile k fds).size = some 0 := by
  unfold readFile
  simp only [ho, h, fileGetSize, not_true_eq_false, if_false]
  exact ⟨rfl, by decide⟩

/-- C79 is false for a file whose size does not fit an int: the stored size is another number. -/
theorem C79_size_false (k : Kernel) (fds : List Nat) (ho : k.opens = true) (n : Nat) (h : k.stat = .file n) (hn : 2147483648 ≤ n) : (readFile k fds).size ≠ some (n : Int) := by
  unfold readFile
  simp only [ho, h, fileGetSize, not_true_eq_false, if_false]
  intro e
  have := Option.some.inj e
  unfold ofU at this
  split at this <;> omega

/-- C79 is false for a file that is longer than the buffer: there is no terminating zero. -/
theorem C79_unterminated_false : ∃ k : Kernel, ReadsFile k [65, 66, 67] ∧ (fileGetContents k 2 []).2.1 = [65, 66] := by
  refine ⟨⟨true, 3, .file 3, fun n => some ([65, 66, 67].take n), true⟩, ?_, by decide⟩
  intro n bs h
  have := Option.some.inj h
  subst this
  refine ⟨?_, by simp; omega, by simp; omega, by simp; omega⟩
  rw [List.length_take, ← List.take_take, List.take_length]

/-- C79 is false for a file with the name `???`. -/
theorem C79_name_false (stat : CStr → StatAns) : fileExists (some "???".toList) stat = false := by
  show (if "???".toList = [] then false else if "???".toList = "???".toList then false else stat "???".toList != .err) = false
  rw [if_neg (by decide), if_pos rfl]

/-- C79 is false for a descriptor 0 (standard input was closed): it is not closed. -/
theorem C79_share_false (k : Kernel) (fds : List Nat) (h : k.opens = true ∧ k.maps = true ∧ k.fd = 0) : closeSharedFile k.fd (shareFile k true fds).2.2 = 0 :: fds := by
  unfold shareFile closeSharedFile; simp [h]

/-- C79 is false for a text that is not written: the file stays open (and its content is lost). -/
theorem C79_write_false (k : WriteKernel) (text old : List UInt8) (fds : List Nat) (h : k.opens = true ∧ k.prints = false) : (writeToFile k text old fds).2.2 = k.fd :: fds := by
  unfold writeToFile; simp [h]

/-- a kernel for the examples -/
def fileKernel (content : List UInt8) : Kernel := ⟨true, 3, .file content.length, fun n => some (content.take (min n 0x7ffff000)), true⟩

theorem fileKernel_reads (content : List UInt8) : ReadsFile (fileKernel content) content := by
  intro n bs h
  have := Option.some.inj h
  subst this
  refine ⟨?_, by simp; omega, by simp; omega, by simp; omega⟩
  rw [List.length_take, ← List.take_take (i := min n 0x7ffff000) (j := content.length), List.take_length]

/-- the hypotheses are met: a file of three bytes is read -/
example : (readFile (fileKernel [1, 2, 3]) [0, 1, 2]).data = some [1, 2, 3, 0] :=
  (C79_read_partial _ _ (fileKernel_reads _) _ _).2 ⟨rfl, 3, by decide, rfl, by decide, by decide, by decide, by decide⟩
/-- a directory with four entries, the caller stops at the second that is not skipped -/
example : (scanDir ⟨true, 4, ["." , "..", "a", ".b", "c"].map String.toList, 0, true⟩ (fun (s : List CStr) n => (s ++ [n], n != ".b".toList, 0)) [] [0]) = (["a".toList, ".b".toList], true, [0]) := by decide

end BX
