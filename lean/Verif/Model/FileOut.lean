import Verif.Model.Disk

/-!
# Files that are opened for writing, and the streams that write to them

Models the classes of StreamImpl.cpp that write: `COutputStreamImplPwrite` (lines 25-71; the one used on Linux), `CSimpleOutputStreamImplWindows` (78-131),
`CSimpleOutputStreamStreams` (167-251; the one used where neither `pwrite` nor the Windows API is available), `CInputOutputStreamImplPreadPwrite` (258-315)
and `CSimpleInputOutputStreamImpl` (396-466); see `CreateOutputStreamForFile` and `CreateInputOutputStreamForFile`, libCZI_Lib.cpp:109-139. The operating
system is a parameter: what it answers is arbitrary.
-/

namespace Verif.Czi

/-- A file: its contents, and what the process may do with it. -/
structure FileSt where
  data : Disk
  readable : Bool
  writable : Bool

/-- The files there are, by path. -/
abbrev Files := List Char → Option FileSt

/-- The files with another one at `p`. -/
def Files.set (fs : Files) (p : List Char) (f : FileSt) : Files := fun q => if q = p then some f else fs q

/-- A new file. -/
def FileSt.new : FileSt := ⟨Disk.empty, true, true⟩

/-- `open` with `O_WRONLY | O_CREAT | O_TRUNC`, and `O_EXCL` if `excl`; `mayCreate` = the process may create files in this directory. The files afterwards and
whether the call succeeded. -/
def posixOpenOut (excl mayCreate : Bool) (fs : Files) (p : List Char) : Files × Bool :=
  match fs p with
  | some f =>
    if excl then (fs, false)
    else if f.writable then (fs.set p { f with data := Disk.empty }, true)
    else (fs, false)
  | none => if mayCreate then (fs.set p FileSt.new, true) else (fs, false)

/-- The constructor of `COutputStreamImplPwrite`, StreamImpl.cpp:25-46; `false` = exception. `CSimpleOutputStreamImplWindows` (78-92) passes `CREATE_NEW` or
`CREATE_ALWAYS`, which means the same. -/
def openPwrite (mayCreate : Bool) (fs : Files) (p : List Char) (overwriteExisting : Bool) : Files × Bool :=
  posixOpenOut (!overwriteExisting) mayCreate fs p

/-- The constructor of `CSimpleOutputStreamStreams`, StreamImpl.cpp:167-224: tries to open the file for reading, and then opens it with `fopen(…, "wb")`, which
is `open` without `O_EXCL`. `others` is what other processes do between the two. -/
def openStdio (others : Files → Files) (mayCreate : Bool) (fs : Files) (p : List Char) (overwriteExisting : Bool) : Files × Bool :=
  if !overwriteExisting && (match fs p with | some f => f.readable | none => false) then (fs, false)
  else posixOpenOut false mayCreate (others fs) p

/-- The constructor of `CInputOutputStreamImplPreadPwrite`, StreamImpl.cpp:258-275: `O_RDWR | O_CREAT`. -/
def openEdit (mayCreate : Bool) (fs : Files) (p : List Char) : Files × Bool :=
  match fs p with
  | some f => (fs, f.readable && f.writable)
  | none => if mayCreate then (fs.set p FileSt.new, true) else (fs, false)

/-! ## `pwrite` -/

/-- `COutputStreamImplPwrite::Write`, StreamImpl.cpp:56-71 (and 300-315 of the input-output stream, and 103-131 for Windows): one call of `pwrite`. `answer` is what
the operating system says: `none` = error, `some n` = at most `n` bytes are written. The result is the number reported, `none` = exception. An offset of 2^63 or
more is negative for `pwrite`, an error. -/
def pwriteWrite (answer : Option Nat) (d : Disk) (w : Write) : Disk × Option Nat :=
  if 2 ^ 63 ≤ w.1 then (d, none)
  else match answer with
    | none => (d, none)
    | some n => (d.write w.1 (w.2.take n), some (min n w.2.length))

/-- A sequence of writes, going on after exceptions; the results. -/
def pwriteRun (d : Disk) : List (Write × Option Nat) → Disk × List (Option Nat)
  | [] => (d, [])
  | x :: r => ((pwriteRun (pwriteWrite x.2 d x.1).1 r).1, (pwriteWrite x.2 d x.1).2 :: (pwriteRun (pwriteWrite x.2 d x.1).1 r).2)

/-! ## The C library -/

/-- A C `FILE`: what has got to the file, and the bytes in the buffer that have not, with their position. -/
structure StdFile where
  disk : Disk
  pending : Option Write

/-- What the C library and the operating system answer to a call of `Write`: whether the buffer could be emptied (`none`) or only so many of its bytes; whether
the position could be set; how many of the bytes `fwrite` accepts, and how many of these get to the file at once. -/
structure StdAnswer where
  flush : Option Nat
  seek : Bool
  accepted : Nat
  now : Nat

/-- The bytes in the buffer are written to the file (`fflush`, and `fseeko` and `fclose`, which do the same first); whether this succeeded. -/
def StdFile.flush (s : StdFile) (answer : Option Nat) : StdFile × Bool :=
  match s.pending with
  | none => (s, true)
  | some w =>
    match answer with
    | none => (⟨s.disk.write w.1 w.2, none⟩, true)
    | some n => (⟨s.disk.write w.1 (w.2.take n), none⟩, false)

/-- `CSimpleOutputStreamStreams::Write`, StreamImpl.cpp:231-251: `fseeko`, an exception if it fails, then `fwrite`, whose result is reported. -/
def stdWrite (a : StdAnswer) (s : StdFile) (w : Write) : StdFile × Option Nat :=
  if (s.flush a.flush).2 && a.seek && decide (w.1 < 2 ^ 63) then
    let l := w.2.take a.accepted
    (⟨(s.flush a.flush).1.disk.write w.1 (l.take a.now), if l.length ≤ a.now then none else some (w.1 + a.now, l.drop a.now)⟩, some l.length)
  else ((s.flush a.flush).1, none)

/-- A sequence of writes, going on after exceptions; the results. -/
def stdRun (s : StdFile) : List (Write × StdAnswer) → StdFile × List (Option Nat)
  | [] => (s, [])
  | x :: r => ((stdRun (stdWrite x.2 s x.1).1 r).1, (stdWrite x.2 s x.1).2 :: (stdRun (stdWrite x.2 s x.1).1 r).2)

/-- The destructor, StreamImpl.cpp:226-229: the result of `fclose` is not looked at. The file afterwards. -/
def stdClose (s : StdFile) (answer : Option Nat) : Disk := (s.flush answer).1.disk

/-- How the C library (glibc) reads the mode of `fopen`: whether the file may be read and written. The first character decides; of the others only `+` matters
here. -/
def fopenMode : List Char → Option (Bool × Bool)
  | 'r' :: r => some (true, r.contains '+')
  | 'w' :: r => some (r.contains '+', true)
  | 'a' :: r => some (r.contains '+', true)
  | _ => none

/-- The mode with which `CSimpleInputOutputStreamImpl` opens a file, StreamImpl.cpp:407. -/
def editMode : List Char := ['r', 'w', 'b']

/-- `CSimpleInputOutputStreamImpl::Write`, StreamImpl.cpp:434-455: as above; `fwrite` to a file that is not open for writing accepts nothing. -/
def editWrite (a : StdAnswer) (s : StdFile) (w : Write) : StdFile × Option Nat :=
  match fopenMode editMode with
  | some (_, true) => stdWrite a s w
  | _ => if a.seek && decide (w.1 < 2 ^ 63) then (s, some 0) else (s, none)

end Verif.Czi
