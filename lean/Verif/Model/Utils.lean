import Verif.Model.Text
/-
Text and path helpers: wildcard match, bounded scan, file names, version numbers, bounded concatenation, identifiers,
directory creation.  src/utils.cpp, src/files.cpp.
-/
namespace BX

/-! ### wildcard match -/

/-- `while (*mask == '*' || *mask == '?') mask++;` utils.cpp:746. -/
def skipWild : CStr → CStr
  | [] => []
  | c :: cs => if c = '*' ∨ c = '?' then skipWild cs else c :: cs

theorem skipWild_length (m : CStr) : (skipWild m).length ≤ m.length := by
  induction m with
  | nil => simp [skipWild]
  | cons c cs ih => rw [skipWild]; split <;> simp <;> omega

/-- All non-empty suffixes of the value, the positions visited by `while (*value != '\0') … value++`. utils.cpp:750-754. -/
def suffixes : CStr → List (Char × CStr)
  | [] => []
  | c :: cs => (c, cs) :: suffixes cs

/-- `AdvEqual`, utils.cpp:730-759, for a mask that is not null. The `while` loop is the recursion; after the inner search has
failed the value is exhausted, so the loop ends and `*mask == '\0' && *value == '\0'` is what is left. -/
def advEqual (mask value : CStr) : Bool :=
  match mask, value with
  | [], [] => true
  | [], _ :: _ => false
  | _ :: _, [] => false
  | m :: ms, v :: vs =>
    if m = v ∨ m = '?' then advEqual ms vs
    else if m = '*' ∧ ms = [] then true
    else if m = '*' then
      match h : skipWild ms with
      | [] => true -- `*mask` is the terminator and never equals a character of the value
      | c :: cs => (suffixes (v :: vs)).any fun s => c == s.1 && advEqual cs s.2
    else false
termination_by mask.length
decreasing_by
  · simp
  · have := skipWild_length ms
    rw [h] at this
    simp at this ⊢
    omega

/-- `AdvEqual` with a possibly null mask, utils.cpp:732. -/
def advEqualP (mask : Option CStr) (value : CStr) : Bool :=
  match mask with
  | none => true
  | some m => advEqual m value

/-! ### bounded string scan -/

/-- What a call of `ScanStr` does. -/
structure ScanStrRes where
  /-- the returned flag -/
  ret : Bool
  /-- the text at the advanced cursor; `none` if the cursor was moved behind the terminator of the input -/
  rest : Option CStr
  /-- the bytes stored at `value[0]`, `value[1]`, … -/
  written : List Char
deriving Repr, DecidableEq

/-- The copying loop: `stop` is the loop's end condition other than the terminator, `room` is `value_size`.
utils.cpp:682-690, 695-703. -/
def scanStrLoop (stop : Char → Bool) : Nat → CStr → List Char × CStr
  | _, [] => ([], [])
  | room, c :: cs =>
    if stop c then ([], c :: cs)
    else if 1 < room then
      let (w, r) := scanStrLoop stop (room - 1) cs
      (c :: w, r)
    else scanStrLoop stop room cs

/-- `ScanStr`, utils.cpp:675-708. -/
def scanStr (p : CStr) (separator : Char) (size : Nat) : ScanStrRes :=
  let p := skipSpaces p
  if separator = ' ' then
    let (w, r) := scanStrLoop isSpace size p
    { ret := peek w != '\x00', rest := some r.tail, written := w ++ ['\x00'] }
  else
    let (w, r) := scanStrLoop (· == separator) size p
    let rest := if peek r = separator then (if r = [] then none else some r.tail) else some r
    { ret := peek w != '\x00', rest := rest, written := w ++ ['\x00'] }

/-! ### file names -/

/-- `PATH_MAX` of Linux (limits.h). -/
def PATH_MAX : Nat := 4096

/-- `while (filename[0] == '.' && filename[1] == '/') filename += 2;` utils.cpp:216-217. -/
def stripDotSlash : CStr → CStr
  | '.' :: '/' :: r => stripDotSlash r
  | r => r

/-- The part of a text before its last dot, or the whole text (`strrchr`), utils.cpp:243-244. -/
def beforeLastDot (s : CStr) : CStr :=
  if '.' ∈ s then ((s.reverse.dropWhile (· != '.')).tail).reverse else s

/-- The name before the extension is changed, utils.cpp:219-234. The buffer keeps `PATH_MAX-1` characters of it; when the
target directory alone fills it, `PATH_MAX-len-1` is -1, i.e. an unbounded copy: undefined behaviour. -/
def joinTarget (filename : CStr) (target : Option CStr) : Out CStr :=
  match target with
  | some d =>
    let f := if peek filename = '/' then filename.tail else filename
    let d := d.take (PATH_MAX - 1)
    if d.length = PATH_MAX - 1 then .ub
    else .ok (d ++ '/' :: f.take (PATH_MAX - (d.length + 1) - 1))
  | none => .ok (filename.take (PATH_MAX - 1))

/-- `AllocFilenameChangeExt` for a filename that is not null, utils.cpp:205-251. -/
def changeExt (filename : CStr) (ext target : Option CStr) : Out CStr :=
  (joinTarget (stripDotSlash filename) target).bind fun path =>
    match ext with
    | none => .ok path
    | some e => .ok (beforeLastDot path ++ e)

/-! ### version numbers -/

/-- `LIMITE(V,0,255)`, macros.h:151. -/
def limite (v lo hi : Int) : Int :=
  let v := if v < lo then lo else v
  if v > hi then hi else v

/-- The loop of `GetVersion` from component `i` on, utils.cpp:1077-1086. `n` is the number of components still allowed. -/
def getVersionLoop : Nat → CStr → Nat → Out Nat
  | 0, _, version => .ok version
  | n + 1, p, version =>
    if p = [] then .ok version
    else
      match scanInt p with
      | .ub => .ub
      | .fail => .ok version
      | .ok (V, r) =>
        let version := version ||| ((limite V 0 255).toNat <<< (n * 8))
        if peek r = '.' then getVersionLoop n r.tail version else .ok version

/-- `GetVersion`, utils.cpp:1072-1087 (not null). -/
def getVersion (p : CStr) : Out Nat := getVersionLoop 4 p 0

/-! ### bounded concatenation -/

/-- `strncpy(dest,src,n)`: the bytes stored at `dest`. -/
def strncpyBytes (src : List Char) (n : Nat) : List Char :=
  let s := (src.take n).takeWhile (· != '\x00')
  s ++ List.replicate (n - s.length) '\x00'

/-- What a call of `StrWrite` does. -/
structure StrWriteRes where
  ret : Bool
  /-- bytes stored from `dest` on -/
  written : List Char
  /-- how far `dest` moves -/
  advance : Nat
  /-- the source cursor as a distance from the old one, `none` = null pointer -/
  src : Option Nat
deriving Repr, DecidableEq

/-- `StrWrite`, utils.cpp:1090-1099. `src` is the memory at the source (with its terminators), `room = dest_limit - dest`,
`limit = src_limit - src` or `none` for a null limit. -/
def strWrite (room : Nat) (src : List Char) (limit : Option Nat) : StrWriteRes :=
  let size := match limit with
    | some n => n
    | none => (src.takeWhile (· != '\x00')).length
  if size > room then { ret := false, written := [], advance := 0, src := some 0 }
  else { ret := true, written := strncpyBytes src size, advance := size, src := limit }

/-! ### identifiers -/

def isLower (c : Char) : Bool := 'a'.toNat ≤ c.toNat && c.toNat ≤ 'z'.toNat
def isUpper (c : Char) : Bool := 'A'.toNat ≤ c.toNat && c.toNat ≤ 'Z'.toNat
/-- `toupper` in the C locale -/
def toUpper (c : Char) : Char := if isLower c then Char.ofNat (c.toNat - 32) else c

/-- The style switches, utils.cpp:1117-1120. -/
structure IdentStyle where
  underscore : Bool
  uppercase : Bool
  allUpper : Bool
deriving Repr, DecidableEq

/-- `strstr(style,"U!") != nullptr` -/
def hasUBang : CStr → Bool
  | 'U' :: '!' :: _ => true
  | _ :: cs => hasUBang cs
  | [] => false

def identStyle (style : CStr) : IdentStyle :=
  { underscore := style.contains '_', uppercase := style.contains 'U', allUpper := hasUBang style }

/-- `while (isspace(*Source) || *Source == '-') Source++;` utils.cpp:1151. -/
def skipSpaceDash : CStr → CStr
  | [] => []
  | c :: cs => if isSpace c || c == '-' then skipSpaceDash cs else c :: cs

theorem skipSpaceDash_length (p : CStr) : (skipSpaceDash p).length ≤ p.length := by
  induction p with
  | nil => simp [skipSpaceDash]
  | cons c cs ih => rw [skipSpaceDash]; split <;> simp <;> omega

/-- The loop of `MakeIdent`, utils.cpp:1122-1155: `len` characters are in the buffer already. -/
def makeIdentLoop (st : IdentStyle) (len : Nat) (need : Bool) (src : CStr) : CStr :=
  match src with
  | [] => []
  | c :: cs =>
    if len < 63 then
      if isLower c || isUpper c || (0 < len && isDig c) || c == '_' then
        if need || st.allUpper then toUpper c :: makeIdentLoop st (len + 1) false cs
        else c :: makeIdentLoop st (len + 1) need cs
      else if isSpace c || c == '-' then
        if st.underscore || c == '-' then '_' :: makeIdentLoop st (len + 1) need (skipSpaceDash cs)
        else makeIdentLoop st len (st.uppercase || need) (skipSpaceDash cs)
      else makeIdentLoop st len need cs
    else []
termination_by src.length
decreasing_by
  all_goals simp
  all_goals have := skipSpaceDash_length cs
  all_goals omega

/-- `MakeIdent`, utils.cpp:1102-1155. The result is the text left in the static 64-byte buffer. -/
def makeIdent (src style : CStr) : CStr :=
  let st := identStyle style
  match src with
  | [] => []
  | c :: cs =>
    if isDig c then '_' :: c :: makeIdentLoop st 2 st.uppercase cs
    else makeIdentLoop st 0 st.uppercase (c :: cs)

/-- `GetIdentLen`, utils.cpp:1157-1167. -/
def getIdentLen (p : CStr) : Nat :=
  match p with
  | [] => 0
  | c :: cs =>
    if isLower c || isUpper c || c == '_' then
      1 + (cs.takeWhile fun c => isLower c || isUpper c || isDig c || c == '_').length
    else 0

/-- `streq`, utils.cpp:1169-1183: null pointers count as empty texts. -/
def streq (a b : Option CStr) : Bool :=
  match a, b with
  | none, none => true
  | none, some b => b == []
  | some a, none => a == []
  | some a, some b => a == b

/-! ### directories -/

/-- Result of one `mkdir` call. -/
inductive MkRes where
  | created | exists_ | error
deriving Repr, DecidableEq

/-- The loop of `force_directory`, files.cpp:22-39. `done` is the reversed part of the path before position `i`, `todo` the rest;
`mkdir` is any behaviour, depending on the calls made before (newest first). Returns the flag and all calls in order. -/
def forceLoop (mkdir : List CStr → CStr → MkRes) : (calls : List CStr) → (done todo : CStr) → Bool × List CStr
  | calls, _, [] => (true, calls.reverse)
  | calls, done, c :: cs =>
    if c = '/' ∧ done ≠ [] then
      match mkdir calls done.reverse with
      | .error => (false, (done.reverse :: calls).reverse)
      | _ => forceLoop mkdir (done.reverse :: calls) (c :: done) cs
    else forceLoop mkdir calls (c :: done) cs

/-- `force_directory`, files.cpp:17-41. -/
def forceDirectory (mkdir : List CStr → CStr → MkRes) (directory : CStr) : Bool × List CStr :=
  forceLoop mkdir [] [] directory

end BX
