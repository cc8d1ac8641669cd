/-!
# The C API (libCZIAPI): handles, ownership and lifetimes

A handle is the address of a wrapper (sharedptrwrapper.h) with a magic number and a `shared_ptr`. The model keeps the wrappers that are allocated, and the
objects with their use counts and the `shared_ptr` members that keep other objects alive. Each call of the API is a function of this state; what the
library proper does with the data (success, failure, which object is found) is a parameter of the call. `none` is undefined behaviour or the
termination of the program.

Simplifications: calls do not overlap in time; allocation of memory succeeds; `use_count` is the number of the references modelled here (none is held by
another thread); objects destroyed together are destroyed in the order of a work list.
-/

namespace Verif.CApi

/-- The classes of `SharedPtrWrapper`, sharedptrwrapper.h:123-221. -/
inductive Kind where
  | reader | subBlock | stream | bitmap | metadataSegment | attachment | outputStream | writer | accessor | documentInfo | displaySettings | channelSettings
  deriving DecidableEq, Repr

/-- The magic numbers, sharedptrwrapper.h:13-24. -/
def Kind.magic : Kind → Nat
  | .reader => 0x48EE87D2
  | .subBlock => 0x27AD4774
  | .stream => 0xF2BB50D4
  | .bitmap => 0x9155FC95
  | .metadataSegment => 0x7A3D4A3A
  | .attachment => 0x3A4A3D7A
  | .outputStream => 0x8020FAA3
  | .writer => 0xF8384829
  | .accessor => 0xE34C94D7
  | .documentInfo => 0x3A4A3D7A
  | .displaySettings => 0xE67C5A4C
  | .channelSettings => 0x88265932

/-- An object owned by `shared_ptr`s: its class, its use count, its own `shared_ptr` members (the stream of a reader, `CCZIReader::stream`; the stream of
a writer, `CCziWriter::stream`; the reader of an accessor, SingleChannelAccessorBase.h:18; the channels of display settings, `CDisplaySettingsOnPod::channelDs`),
the lock count of a bitmap (bitmapData.h:48-67), and the number of the caller's stream for `InputStreamWrapper` and `OutputStreamWrapper` (libCZIApi.cpp:657-758). -/
structure Obj where
  kind : Kind
  count : Nat
  uses : List Nat
  locks : Nat
  ext : Option Nat

/-- A `SharedPtrWrapper`, sharedptrwrapper.h:38-60, at an address. -/
structure Wrapper where
  addr : Nat
  kind : Kind
  obj : Option Nat
  deriving DecidableEq, Repr

/-- All wrappers and objects there are, the number of the next object, and the calls of `close_function` so far (the last one first). -/
structure St where
  wrappers : List Wrapper
  objs : List (Nat × Obj)
  next : Nat
  closed : List Nat

/-- Nothing yet. -/
def St.init : St := ⟨[], [], 0, []⟩

def St.wrapper? (s : St) (h : Nat) : Option Wrapper := s.wrappers.find? fun w => w.addr == h

def St.obj? (s : St) (o : Nat) : Option Obj := (s.objs.find? fun q => q.1 == o).map (·.2)

/-- The object is changed. -/
def St.setObj (s : St) (o : Nat) (f : Obj → Obj) : St := { s with objs := s.objs.map fun q => if q.1 = o then (q.1, f q.2) else q }

/-- `shared_ptr`s go away: use counts are decremented; an object whose count reaches zero is destroyed, which calls `close_function` for the caller's
streams (libCZIApi.cpp:700-703, 755-758), terminates the program for a locked bitmap (bitmapData.h:74-90), and makes its members go away. -/
def drops : Nat → List Nat → St → Option St
  | _, [], s => some s
  | 0, _ :: _, _ => none
  | n + 1, o :: p, s =>
    match s.obj? o with
    | none => none
    | some x =>
      if x.count = 1 then
        if x.locks ≠ 0 then none
        else drops n (x.uses ++ p) { s with objs := s.objs.filter (fun q => q.1 != o), closed := x.ext.toList ++ s.closed }
      else drops n p (s.setObj o fun x => { x with count := x.count - 1 })

/-- `drops` until nothing is left to do. -/
def St.drop (s : St) (p : List Nat) : Option St := drops (p.length + (s.objs.map fun q => q.2.uses.length).sum) p s

/-- errorcodes.h. -/
inductive Code where
  | ok | invalidArgument | invalidHandle | indexOutOfRange | lockViolated | unspecified
  deriving DecidableEq, Repr

/-- What a call gives: the code, the handle written to the caller's variable (`some 0`: `kInvalidObjectHandle`), the state afterwards. -/
structure Res where
  code : Code
  out : Option Nat
  st : St

/-- `IsValid` and the use of the wrapper as one of class `k`: the code at the start of each function, e.g. libCZIApi.cpp:512-521. A wrapper of another class
with the same magic number is used as if it were of this class. -/
def check (s : St) (k : Kind) (h : Nat) (next : Option Nat → Option Res) : Option Res :=
  if h = 0 then some ⟨.invalidArgument, none, s⟩
  else
    match s.wrapper? h with
    | none => none
    | some w =>
      if w.kind.magic ≠ k.magic then some ⟨.invalidHandle, none, s⟩
      else if w.kind ≠ k then none
      else next w.obj

/-- A new wrapper for an object. -/
def St.wrap (s : St) (addr : Nat) (k : Kind) (o : Option Nat) : St := { s with wrappers := ⟨addr, k, o⟩ :: s.wrappers }

/-- A new object without members and a wrapper for it. -/
def St.fresh (s : St) (addr : Nat) (k : Kind) (ext : Option Nat) : St :=
  { s with objs := (s.next, ⟨k, 1, [], 0, ext⟩) :: s.objs, next := s.next + 1 }.wrap addr k (some s.next)

/-- The functions that take a handle and make a new object:
`libCZI_ReaderReadSubBlock` (355-388), `libCZI_ReaderGetMetadataSegment` (390-419), `libCZI_ReaderReadAttachment` (476-508), `libCZI_SubBlockCreateBitmap` (799-830),
`libCZI_MetadataSegmentGetCziDocumentInfo` (1148-1179), `libCZI_CziDocumentInfoGetDisplaySettings` (1288-1312), `libCZI_CreateSingleChannelTileAccessor` (1854-1883),
`libCZI_SingleChannelTileAccessorGet` (1912-1946). -/
inductive Maker where
  | readSubBlock | metadataSegment | readAttachment | createBitmap | documentInfo | displaySettings | accessor | accessorGet
  deriving DecidableEq, Repr

/-- The class of the handle given. -/
def Maker.source : Maker → Kind
  | .readSubBlock | .metadataSegment | .readAttachment | .accessor => .reader
  | .createBitmap => .subBlock
  | .documentInfo => .metadataSegment
  | .displaySettings => .documentInfo
  | .accessorGet => .accessor

/-- The class of the handle returned. -/
def Maker.target : Maker → Kind
  | .readSubBlock => .subBlock
  | .metadataSegment => .metadataSegment
  | .readAttachment => .attachment
  | .accessor => .accessor
  | .createBitmap | .accessorGet => .bitmap
  | .documentInfo => .documentInfo
  | .displaySettings => .displaySettings

/-- What the library proper returns: an object (display settings: with this many channels), a null pointer, or an exception. -/
inductive Made where
  | object (channels : Nat) | null | throws
  deriving DecidableEq, Repr

/-- The objects that are accessed through `o` are all there: the object, its members, and so on (at most three levels). -/
def St.intact (s : St) : Nat → Nat → Bool
  | 0, _ => true
  | n + 1, o => match s.obj? o with
    | none => false
    | some x => x.uses.all (s.intact n)

/-- `n` new objects for channels. -/
def channelObjs (first n : Nat) : List (Nat × Obj) := (List.range n).map fun i => (first + i, ⟨.channelSettings, 1, [], 0, none⟩)

/-- The functions of `Maker`, after the checks. `outNull`: a null pointer was given for the result. -/
def make (s : St) (f : Maker) (outNull : Bool) (r : Made) (addr : Nat) (obj : Option Nat) : Option Res :=
  match obj with
  | none => none
  | some o =>
    match s.obj? o with
    | none => none
    | some x =>
      if s.intact 3 o = false then none
      else if f.source = .reader ∧ x.uses = [] then some ⟨.unspecified, none, s⟩
      else
        match r with
        | .throws => some ⟨.unspecified, none, s⟩
        | .null =>
          match f with
          | .readSubBlock => some ⟨.ok, some 0, s⟩
          | .readAttachment => if outNull then none else some ⟨.ok, some 0, s⟩
          | .displaySettings => some ⟨.ok, some addr, s.wrap addr .displaySettings none⟩
          | _ => some ⟨.unspecified, none, s⟩
        | .object n =>
          if outNull then none
          else
            match f with
            | .accessor =>
              let s := s.setObj o fun x => { x with count := x.count + 1 }
              some ⟨.ok, some addr, { s with objs := (s.next, ⟨.accessor, 1, [o], 0, none⟩) :: s.objs, next := s.next + 1 }.wrap addr .accessor (some s.next)⟩
            | .displaySettings =>
              some ⟨.ok, some addr, { s with objs := (s.next, ⟨.displaySettings, 1, (List.range n).map (s.next + 1 + ·), 0, none⟩) :: (channelObjs (s.next + 1) n ++ s.objs), next := s.next + 1 + n }.wrap addr .displaySettings (some s.next)⟩
            | f => some ⟨.ok, some addr, s.fresh addr f.target none⟩

/-- The calls. -/
inductive Call where
  /-- `libCZI_CreateReader` 171-190, `libCZI_CreateWriter` 1585-1612, `libCZI_CreateInputStream…` 561-653, `libCZI_CreateOutputStream…` 1494-1544, and with a
  number `libCZI_CreateInputStreamFromExternal` 760-777, `libCZI_CreateOutputStreamFromExternal` 1564-1581; `ok`: the library proper throws no exception. -/
  | create (k : Kind) (ext : Option Nat) (ok : Bool)
  | make (f : Maker) (h : Nat) (outNull : Bool) (r : Made)
  /-- `libCZI_ReaderOpen`, 192-216; `ok`: the file can be read. -/
  | readerOpen (r st : Nat) (ok : Bool)
  /-- `libCZI_WriterCreate`, 1656-1695; `ok`: the file can be written. -/
  | writerCreate (w st : Nat) (ok : Bool)
  /-- `libCZI_WriterClose`, 1632-1654. -/
  | writerClose (w : Nat) (ok : Bool)
  /-- `libCZI_DisplaySettingsGetChannelDisplaySettings`, 2040-2068, for a channel. -/
  | channel (d i : Nat)
  /-- `libCZI_BitmapLock`, 981-999. -/
  | lock (b : Nat)
  /-- `libCZI_BitmapUnlock`, 1001-1028. -/
  | unlock (b : Nat)
  /-- `libCZI_CompositorDoMultiChannelComposition`, 1968-2007; `ok`: the library proper throws no exception. -/
  | compose (bs : List Nat) (ok : Bool)
  /-- A function that takes a handle and accesses the object: `libCZI_SubBlockGetInfo` 832-856, `libCZI_AttachmentGetInfo` 1403-1435, `libCZI_WriterAddSubBlock` 1755-1786, … -/
  | use (k : Kind) (h : Nat)
  /-- `libCZI_ReleaseReader` 510-526, `libCZI_ReleaseInputStream` 779-795, …, `libCZI_ReleaseBitmap` 1030-1062. -/
  | release (k : Kind) (h : Nat)

/-- The checks of the bitmaps to compose, libCZIApi.cpp:1983-1994: null is not checked. -/
def checkAll (s : St) : List Nat → Option Res → Option Res
  | [], r => r
  | b :: bs, r => if b = 0 then none else check s .bitmap b fun o => if (o.bind s.obj?).isNone then none else checkAll s bs r

/-- One call; `addr` is the address of the wrapper that is allocated if one is. -/
def step (s : St) (c : Call) (addr : Nat) : Option Res :=
  match c with
  | .create k ext ok => if ok then some ⟨.ok, some addr, s.fresh addr k ext⟩ else some ⟨.unspecified, some 0, s⟩
  | .make f h outNull r =>
    if f = .readAttachment then
      -- libCZIApi.cpp:478: `&&`
      if h = 0 then if outNull then some ⟨.invalidArgument, none, s⟩ else none
      else check s .reader h (make s f outNull r addr)
    else if f ≠ .metadataSegment ∧ outNull = true then some ⟨.invalidArgument, none, s⟩
    else check s f.source h (make s f outNull r addr)
  | .readerOpen r st ok =>
    if st = 0 then some ⟨.invalidArgument, none, s⟩
    else check s .reader r fun o => check s .stream st fun i =>
      match o, i with
      | some o, some i =>
        match s.obj? o, s.obj? i with
        | some x, some _ =>
          if x.uses ≠ [] then some ⟨.unspecified, none, s⟩
          else if ok then some ⟨.ok, none, (s.setObj i fun x => { x with count := x.count + 1 }).setObj o fun x => { x with uses := [i] }⟩
          else some ⟨.unspecified, none, s⟩
        | _, _ => none
      | _, _ => none
  | .writerCreate w st ok =>
    if st = 0 then some ⟨.invalidArgument, none, s⟩
    else check s .writer w fun o => check s .outputStream st fun i =>
      match o, i with
      | some o, some i =>
        match s.obj? o, s.obj? i with
        | some x, some _ =>
          if x.uses ≠ [] then some ⟨.unspecified, none, s⟩
          else some ⟨if ok then .ok else .unspecified, none, (s.setObj i fun x => { x with count := x.count + 1 }).setObj o fun x => { x with uses := [i] }⟩
        | _, _ => none
      | _, _ => none
  | .writerClose w ok => check s .writer w fun o =>
      match o with
      | none => none
      | some o =>
        match s.obj? o with
        | none => none
        | some x =>
          if s.intact 3 o = false then none
          else if x.uses = [] then some ⟨.unspecified, none, s⟩
          else if ok then ((s.setObj o fun x => { x with uses := [] }).drop x.uses).map fun s => ⟨.ok, none, s⟩
          else some ⟨.unspecified, none, s⟩
  | .channel d i => check s .displaySettings d fun o =>
      match o with
      | none => none
      | some o =>
        match s.obj? o with
        | none => none
        | some x =>
          match x.uses[i]? with
          | none => some ⟨.indexOutOfRange, none, s⟩
          | some u => some ⟨.ok, some addr, (s.setObj u fun x => { x with count := x.count + 1 }).wrap addr .channelSettings (some u)⟩
  | .lock b => check s .bitmap b fun o =>
      match o with
      | none => none
      | some o => if (s.obj? o).isNone then none else some ⟨.ok, none, s.setObj o fun x => { x with locks := x.locks + 1 }⟩
  | .unlock b => check s .bitmap b fun o =>
      match o with
      | none => none
      | some o =>
        match s.obj? o with
        | none => none
        | some x => if x.locks < 1 then some ⟨.lockViolated, none, s⟩ else some ⟨.ok, none, s.setObj o fun x => { x with locks := x.locks - 1 }⟩
  | .compose bs ok =>
    if bs = [] then some ⟨.invalidArgument, none, s⟩
    else checkAll s bs (if ok then some ⟨.ok, some addr, s.fresh addr .bitmap none⟩ else some ⟨.unspecified, none, s⟩)
  | .use k h => check s k h fun o =>
      match o with
      | none => none
      | some o => if s.intact 3 o = false then none else some ⟨.ok, none, s⟩
  | .release k h => check s k h fun o =>
      match o with
      | none => some ⟨.ok, none, { s with wrappers := s.wrappers.filter fun w => w.addr != h }⟩
      | some o =>
        match s.obj? o with
        | none => none
        | some x =>
          if k = .bitmap ∧ x.count = 1 ∧ x.locks ≠ 0 then some ⟨.lockViolated, none, s⟩
          else (({ s with wrappers := s.wrappers.filter fun w => w.addr != h } : St).drop [o]).map fun s => ⟨.ok, none, s⟩

/-- A sequence of calls with the addresses of the wrappers they allocate. -/
def run : List (Call × Nat) → St → Option St
  | [], s => some s
  | c :: cs, s => (step s c.1 c.2).bind fun r => run cs r.st

end Verif.CApi
