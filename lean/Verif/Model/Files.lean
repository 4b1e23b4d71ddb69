import Verif.Model.Base
import Verif.Model.Value
/-
Reading files, writing a text to a file, sharing a file and visiting a directory. Models src/utils.cpp:17-43 (`WriteToFile`), 45-88 (`ReadFile`), 92-151 (`ShareFileRO`, `ShareFileRW`,
`CloseSharedFile`), 153-193 (`FileGetSize`, `FileGetSizeByFd`), and src/files.cpp:44-175.

The system calls are parameters: a `Kernel` holds the answers of the calls for one file. What answers a kernel may give is said in Spec/Files.lean. Messages (ERRNO_SHOW) are left out, and
`new` does not fail. The descriptors that are open are a list of numbers.
-/
namespace BX

/-- the answer of `stat` and `fstat`: an error, a directory or another file, with its size -/
inductive StatAns where
  | err | dir (size : Int) | file (size : Int)
deriving DecidableEq, Repr

/-- the answers of the system calls for one file: whether `open` succeeds and its descriptor, `fstat`, `read` by the number of bytes that are asked for (`none`: an error), `mmap` -/
structure Kernel where
  opens : Bool
  fd : Nat
  stat : StatAns
  read : Nat → Option (List UInt8)
  maps : Bool

/-- `FileGetSize` and `FileGetSizeByFd`, utils.cpp:153-193 -/
def fileGetSize : StatAns → Int
  | .err => -1
  | .dir _ => -1
  | .file n => n

/-- what `ReadFile` gives: the memory with the data (`none`: the null pointer), the value stored to `*size` (`none`: nothing), the open descriptors -/
structure ReadRes where
  data : Option (List UInt8)
  size : Option Int
  fds : List Nat

/-- `ReadFile`, utils.cpp:45-88 (`must_exist` is not used); `*size = file_size` keeps 32 bits -/
def readFile (k : Kernel) (fds : List Nat) : ReadRes :=
  if ¬ k.opens then ⟨none, none, fds⟩
  else
    let size := fileGetSize k.stat
    let data :=
      if size > 0 then
        match k.read size.toNat with
        | none => none
        | some bs => if (bs.length : Int) < size then none else some (bs ++ [0])
      else none
    ⟨data, some (ofU 32 (size % 2 ^ 32).toNat), (k.fd :: fds).erase k.fd⟩

/-- `file_get_contents`, files.cpp:95-114: the result, the `size` bytes of the buffer afterwards and the open descriptors -/
def fileGetContents (k : Kernel) (size : Nat) (fds : List Nat) : Int × List UInt8 × List Nat :=
  let content : List UInt8 := List.replicate size 0
  if ¬ k.opens then (-1, content, fds)
  else
    match k.read size with
    | none => (-1, content, (k.fd :: fds).erase k.fd)
    | some bs => (bs.length, bs ++ content.drop bs.length, (k.fd :: fds).erase k.fd)

/-- `file_getsize`, files.cpp:44-57 -/
def fileGetsize : StatAns → Int
  | .err => -1
  | .dir n => n
  | .file n => n

/-- `file_gettime`, files.cpp:59-74; `mtime`: the answer of `stat` for the name (`none`: an error) -/
def fileGettime (filename : Option CStr) (mtime : CStr → Option Int) : Int :=
  match filename with
  | none => -1
  | some f => if f = [] then -1 else (mtime f).getD (-1)

/-- `file_exists`, files.cpp:76-93 -/
def fileExists (filename : Option CStr) (stat : CStr → StatAns) : Bool :=
  match filename with
  | none => false
  | some f => if f = [] then false else if f = "???".toList then false else stat f != .err

/-- `s_ShareFile`, utils.cpp:106-137, the result (is it a mapping?), the value stored to `*fd` and the open descriptors; `keep`: the caller asks for the descriptor -/
def shareFile (k : Kernel) (keep : Bool) (fds : List Nat) : Bool × Option Nat × List Nat :=
  if ¬ k.opens then (false, none, fds)
  else if ¬ k.maps then (false, none, (k.fd :: fds).erase k.fd)
  else if keep then (true, some k.fd, k.fd :: fds)
  else (true, none, (k.fd :: fds).erase k.fd)

/-- `CloseSharedFile`, utils.cpp:139-151, the descriptors -/
def closeSharedFile (fd : Int) (fds : List Nat) : List Nat := if fd > 0 then fds.erase fd.toNat else fds

/-- the answers for a text that is written: `fopen`, how much of the text is written by `vfprintf` and `fclose`, and whether they say it is all -/
structure WriteKernel where
  opens : Bool
  fd : Nat
  prints : Bool
  closes : Bool
  /-- the part of the text that is in the file afterwards -/
  got : List UInt8 → List UInt8

/-- `WriteToFile`, utils.cpp:17-43, for the printed text: the result, the content of the file (`old`: before) and the open descriptors -/
def writeToFile (k : WriteKernel) (text old : List UInt8) (fds : List Nat) : Bool × List UInt8 × List Nat :=
  if ¬ k.opens then (false, old, fds)
  else if ¬ k.prints then (false, k.got text, k.fd :: fds)
  else if ¬ k.closes then (false, k.got text, (k.fd :: fds).erase k.fd)
  else (true, k.got text, (k.fd :: fds).erase k.fd)

/-- the answers for a directory: `opendir`, the names that `readdir` gives, `errno` when it gives none, `closedir` -/
structure DirKernel where
  opens : Bool
  fd : Nat
  names : List CStr
  endErrno : Int
  closes : Bool

/-- the entries that are skipped, files.cpp:131-135 -/
def skipEntry (name : CStr) : Bool := if cAt name 0 = '.' then (if cAt name 1 = '\x00' then true else if cAt name 1 = '.' ∧ cAt name 2 = '\x00' then true else false) else false

/-- the loop of `scan_dir`, files.cpp:124-163: the state of the caller and `errno` at its end. The function of the caller gives its new state, its answer and `errno`; `readdir` leaves
`errno` when it gives a name. -/
def scanDirLoop (endErrno : Int) (onFile : σ → CStr → σ × Bool × Int) : σ → List CStr → σ × Int
  | s, [] => (s, endErrno)
  | s, n :: ns =>
    if skipEntry n then scanDirLoop endErrno onFile s ns
    else
      let r := onFile s n
      if ¬ r.2.1 then (r.1, r.2.2) else scanDirLoop endErrno onFile r.1 ns

/-- `scan_dir`, files.cpp:116-175: the state of the caller, the result and the open descriptors -/
def scanDir (k : DirKernel) (onFile : σ → CStr → σ × Bool × Int) (s : σ) (fds : List Nat) : σ × Bool × List Nat :=
  if ¬ k.opens then (s, false, fds)
  else
    let r := scanDirLoop k.endErrno onFile s k.names
    if r.2 ≠ 0 then (r.1, false, k.fd :: fds)
    else if ¬ k.closes then (r.1, false, (k.fd :: fds).erase k.fd)
    else (r.1, true, (k.fd :: fds).erase k.fd)

end BX
