/-!
# The site object and its decoders (libCZI_Site.cpp)

Any number of threads (numbers) call `SetSiteObject`, the functions of the library that use the site (`GetSite`), and `ISite::GetDecoder` of the built-in site. A schedule is a list of
thread numbers: the thread takes its next step; a thread that is in no call begins the given call. Each step is one access to a shared variable.

Simplifications: memory is sequentially consistent (`SetSiteObject` accesses `g_site` without synchronisation, so that overlapping calls are a data race, undefined in C++; the model shows
the interleavings of the accesses); creating a decoder does not throw.
-/

namespace Verif.Site

/-- The state of a `std::once_flag`. -/
inductive Flag where
  | fresh | running | done
  deriving DecidableEq, Repr

/-- A call: of `GetSite`, or of `SetSiteObject` (`none` = nullptr). Site objects are numbered. -/
inductive Call where
  | get
  | set (s : Option Nat)
  deriving DecidableEq, Repr

/-- Where a thread is. -/
inductive Pc where
  | idle
  /-- before `call_once`, libCZI_Site.cpp:178 -/
  | enter
  /-- in `call_once`, before the test, line 181 -/
  | test
  /-- before the assignment, line 183 -/
  | assign
  /-- at the end of `call_once` -/
  | finish
  /-- before `return g_site`, line 187 -/
  | read
  /-- before the test of `SetSiteObject`, line 208 -/
  | setTest (s : Option Nat)
  /-- before the assignment, line 213 -/
  | setAssign (s : Option Nat)
  deriving DecidableEq, Repr

/-- What can be observed: the result of a call. -/
inductive Event where
  | got (t : Nat) (s : Option Nat)
  | accepted (t : Nat) (s : Option Nat)
  | threw (t : Nat)
  deriving DecidableEq, Repr

/-- `gSite_init` and `g_site`, libCZI_Site.cpp:173-174, and the threads. -/
structure State where
  flag : Flag
  site : Option Nat
  pc : Nat → Pc

/-- The start of the process. -/
def init : State := ⟨.fresh, none, fun _ => .idle⟩

/-- Thread `t` is at `p` now. -/
def State.goto (s : State) (t : Nat) (p : Pc) : State := { s with pc := fun u => if u = t then p else s.pc u }

/-- One step of thread `t`: `GetSite`, libCZI_Site.cpp:176-188, and `SetSiteObject`, lines 206-214. `dflt` is the built-in site, `GetDefaultSiteObject(SiteObjectType::Default)`, lines 190-204. -/
def step (dflt : Nat) (s : State) (t : Nat) (c : Call) : State × List Event :=
  match s.pc t with
  | .idle =>
    match c with
    | .get => (s.goto t .enter, [])
    | .set x => (s.goto t (.setTest x), [])
  | .enter =>
    match s.flag with
    | .fresh => ({ s with flag := .running }.goto t .test, [])
    | .running => (s, [])
    | .done => (s.goto t .read, [])
  | .test => if s.site = none then (s.goto t .assign, []) else (s.goto t .finish, [])
  | .assign => ({ s with site := some dflt }.goto t .finish, [])
  | .finish => ({ s with flag := .done }.goto t .read, [])
  | .read => (s.goto t .idle, [.got t s.site])
  | .setTest x => if s.site ≠ none then (s.goto t .idle, [.threw t]) else (s.goto t (.setAssign x), [])
  | .setAssign x => ({ s with site := x }.goto t .idle, [.accepted t x])

/-- A schedule, from a state: the state reached and the results of the calls, in order. -/
def run (dflt : Nat) : State → List (Nat × Call) → State × List Event
  | s, [] => (s, [])
  | s, (t, c) :: l =>
    let r := step dflt s t c
    let q := run dflt r.1 l
    (q.1, r.2 ++ q.2)

/-! ## Decoders -/

/-- `ImageDecoderType`. -/
inductive Kind where
  | jxr | zstd0 | zstd1 | other
  deriving DecidableEq, Repr

/-- A decoder object: its class, and its identity (the number of decoders created before). -/
structure Decoder where
  kind : Kind
  id : Nat
  deriving DecidableEq, Repr

/-- Where a thread is in `GetDecoder`. -/
inductive DPc where
  | idle
  | enter (k : Kind)
  | create (k : Kind)
  | finish (k : Kind)
  | read (k : Kind)
  deriving DecidableEq, Repr

/-- The members of `CSiteImpJxrLib`, libCZI_Site.cpp:113-121 (the ones of `Kind.other` do not exist and are not used). `created`: the number of decoders created so far. -/
structure DState where
  flag : Kind → Flag
  decoder : Kind → Option Decoder
  created : Nat
  pc : Nat → DPc

/-- The start. -/
def dinit : DState := ⟨fun _ => .fresh, fun _ => none, 0, fun _ => .idle⟩

/-- Thread `t` is at `p` now. -/
def DState.goto (s : DState) (t : Nat) (p : DPc) : DState := { s with pc := fun u => if u = t then p else s.pc u }

/-- One step of thread `t`: `CSiteImpJxrLib::GetDecoder`, libCZI_Site.cpp:123-162. The result: thread, requested kind, decoder (`none` = null). -/
def dstep (s : DState) (t : Nat) (k : Kind) : DState × List (Nat × Kind × Option Decoder) :=
  match s.pc t with
  | .idle => (s.goto t (.enter k), [])
  | .enter .other => (s.goto t .idle, [(t, .other, none)])
  | .enter k =>
    match s.flag k with
    | .fresh => ({ s with flag := fun j => if j = k then .running else s.flag j }.goto t (.create k), [])
    | .running => (s, [])
    | .done => (s.goto t (.read k), [])
  | .create k => ({ s with decoder := fun j => if j = k then some ⟨k, s.created⟩ else s.decoder j, created := s.created + 1 }.goto t (.finish k), [])
  | .finish k => ({ s with flag := fun j => if j = k then .done else s.flag j }.goto t (.read k), [])
  | .read k => (s.goto t .idle, [(t, k, s.decoder k)])

/-- A schedule. -/
def drun : DState → List (Nat × Kind) → DState × List (Nat × Kind × Option Decoder)
  | s, [] => (s, [])
  | s, (t, k) :: l =>
    let r := dstep s t k
    let q := drun r.1 l
    (q.1, r.2 ++ q.2)

end Verif.Site
