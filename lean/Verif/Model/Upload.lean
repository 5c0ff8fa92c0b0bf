import Verif.Model.Util
/-
Saving an uploaded file: `ctx.SaveUploadedFile` (content.go:177-192) with the standard library it calls
(`multipart.FileHeader.Open`, `os.OpenFile`, `os.File.Read/Write/Close`, `io.Copy`) over a Unix file system.

The file system is concrete: names lead to files (several names may lead to the same one), files have bytes and
permission bits, and open descriptors have positions. What the operating system is free to decide (whether a call
fails, how many bytes a call moves, whether data reach the disk when a descriptor is closed) is given by `Luck`, an
arbitrary function of time. Not modelled: other processes changing these files meanwhile, directories, symbolic links
(a name that leads to the same file has the same effect), and a panic from a nil `file`.
-/
namespace Water

/-- An open descriptor: the file, the position, and whether it is for writing. -/
structure Desc where
  file : Nat
  pos : Nat
  out : Bool
  deriving DecidableEq, Repr

/-- A file: its bytes and permission bits. -/
structure Inode where
  data : Str
  perm : Nat
  deriving DecidableEq, Repr

/-- The file system and the descriptors of the process. `files i = none`: no such file (yet). `time` counts the calls
to the operating system. -/
structure Disk where
  names : Map Str Nat
  files : Map Nat Inode
  open' : Map Nat Desc
  umask : Nat
  time : Nat

/-- What the operating system decides, at each time. -/
structure Luck where
  /-- opening fails -/
  openFails : Nat → Bool
  /-- a number for the next descriptor or file, at this time; used only if free -/
  pick : Nat → Nat
  /-- how many bytes a read or write moves, at most (a read moves at least one, before the end of the file) -/
  moves : Nat → Nat
  /-- a read or write reports an error -/
  fails : Nat → Bool
  /-- a read that reaches the end of the file reports the end at once -/
  early : Nat → Bool
  /-- closing a descriptor for writing fails, and only the first bytes of the file have reached the disk -/
  lost : Nat → Option Nat

/-- `multipart.FileHeader` as far as `Open` reads it: the content in memory, or the name of a temporary file
(Go 1.15 `mime/multipart/formdata.go`). -/
inductive Upload where
  | memory (content : Str)
  | temp (path : Str)
  deriving DecidableEq, Repr

/-- Errors of `SaveUploadedFile`, by origin. -/
inductive SaveErr where
  | source
  | target
  | read
  | write
  deriving DecidableEq, Repr

/-- What is read from: the bytes in memory that are left, or a descriptor (`multipart.File`). -/
inductive Reader where
  | memory (rest : Str)
  | desc (fd : Nat)
  deriving DecidableEq, Repr

/-- time goes on -/
def Disk.tick (d : Disk) : Disk := { d with time := d.time + 1 }

/-- The bytes that are left behind a descriptor. -/
def Disk.left (d : Disk) (fd : Nat) : Str :=
  match d.open' fd with
  | none => []
  | some x => match d.files x.file with | none => [] | some n => n.data.drop x.pos

/-- `os.Open(path)`: a descriptor at the start of an existing file. -/
def Disk.openRead (l : Luck) (path : Str) (d : Disk) : Disk × Option Nat :=
  let fd := l.pick d.time
  match d.names path with
  | none => (d.tick, none)
  | some i =>
    if l.openFails d.time ∨ d.open' fd ≠ none ∨ d.files i = none then (d.tick, none)
    else ({ d.tick with open' := d.open'.set fd { file := i, pos := 0, out := false } }, some fd)

/-- `os.OpenFile(dst, os.O_WRONLY|os.O_CREATE|os.O_TRUNC, 0600)` (content.go:184): an existing file loses its bytes and
keeps its permissions; otherwise one is created with the permissions that the mask of the process leaves. -/
def Disk.openTrunc (l : Luck) (path : Str) (perm : Nat) (d : Disk) : Disk × Option Nat :=
  let fd := l.pick d.time
  if l.openFails d.time ∨ d.open' fd ≠ none then (d.tick, none)
  else
    match d.names path with
    | some i =>
      match d.files i with
      | none => (d.tick, none)
      | some n =>
        ({ d.tick with files := d.files.set i { n with data := [] }, open' := d.open'.set fd { file := i, pos := 0, out := true } },
          some fd)
    | none =>
      let i := l.pick (d.time + 1)
      if d.files i ≠ none then (d.tick, none)
      else
        ({ d.tick with
            names := d.names.set path i
            files := d.files.set i { data := [], perm := perm &&& (0o777 ^^^ (d.umask &&& 0o777)) }
            open' := d.open'.set fd { file := i, pos := 0, out := true } },
          some fd)

/-- `os.File.Close`; what it returns is not looked at (content.go:182, 188, both deferred). -/
def Disk.close (l : Luck) (fd : Nat) (d : Disk) : Disk :=
  match d.open' fd with
  | none => d.tick
  | some x =>
    let d' := { d.tick with open' := fun k => if k = fd then none else d.open' k }
    match x.out, l.lost d.time, d.files x.file with
    | true, some k, some n => { d' with files := d.files.set x.file { n with data := n.data.take k } }
    | _, _, _ => d'

/-- `Read` (of `os.File`, or of the section reader over the bytes in memory): the bytes, whether the end was reported,
whether an error was. -/
def Reader.read (l : Luck) (r : Reader) (d : Disk) : Reader × Disk × Str × Bool × Bool :=
  let left := match r with | .memory s => s | .desc fd => d.left fd
  let bad := match r with | .memory _ => false | .desc _ => l.fails d.time
  if left = [] then (r, d.tick, [], !bad, bad)
  else
    let n := min left.length (max 1 (l.moves d.time))
    let end' := decide (n = left.length) && l.early d.time && !bad
    match r with
    | .memory s => (.memory (s.drop n), d.tick, s.take n, end', false)
    | .desc fd =>
      match d.open' fd with
      | none => (r, d.tick, [], false, true)
      | some x =>
        (r, { d.tick with open' := d.open'.set fd { x with pos := x.pos + n } }, left.take n, end', bad)

/-- `os.File.Write`: how many bytes were written and whether there was an error. -/
def Disk.write (l : Luck) (fd : Nat) (bs : Str) (d : Disk) : Disk × Nat × Bool :=
  match d.open' fd with
  | none => (d.tick, 0, true)
  | some x =>
    match d.files x.file with
    | none => (d.tick, 0, true)
    | some f =>
      let n := if l.fails d.time then min bs.length (l.moves d.time) else bs.length
      let data := f.data.take x.pos ++ List.replicate (x.pos - f.data.length) 0 ++ bs.take n ++ f.data.drop (x.pos + n)
      ({ d.tick with
          files := d.files.set x.file { f with data := data }
          open' := d.open'.set fd { x with pos := x.pos + n } },
        n, l.fails d.time)

/-- `io.Copy(f, src)` (Go 1.15 `io/io.go` `copyBuffer`; content.go:190). On Linux `os.File.ReadFrom` may copy inside the
kernel instead, which is one read and one write of any size per step. `fuel` bounds the number of steps; that it is
never used up is proved (`C91_terminates`). `none` is no error. -/
def copyTo (l : Luck) (fd : Nat) : Nat → Reader → Disk → Disk × Option SaveErr
  | 0, _, d => (d, some .read)
  | fuel + 1, r, d =>
    match r.read l d with
    | (r, d, bs, end', bad) =>
      if bs ≠ [] then
        match d.write l fd bs with
        | (d, n, werr) =>
          if werr ∨ n ≠ bs.length then (d, some .write)
          else if bad then (d, some .read)
          else if end' then (d, none)
          else copyTo l fd fuel r d
      else if bad then (d, some .read)
      else if end' then (d, none)
      else copyTo l fd fuel r d

/-- `FileHeader.Open` (content.go:178). -/
def Upload.open' (l : Luck) (u : Upload) (d : Disk) : Disk × Option Reader :=
  match u with
  | .memory s => (d, some (.memory s))
  | .temp path => match d.openRead l path with | (d, fd) => (d, fd.map .desc)

/-- `src.Close()`: nothing for bytes in memory. -/
def Reader.close (l : Luck) (r : Reader) (d : Disk) : Disk :=
  match r with
  | .memory _ => d
  | .desc fd => d.close l fd

/-- how many bytes there are to read -/
def Reader.size (r : Reader) (d : Disk) : Nat :=
  match r with
  | .memory s => s.length
  | .desc fd => (d.left fd).length

/-- `ctx.SaveUploadedFile(file, dst)` (content.go:177-192); `none` is a nil error. `more` is fuel beyond what is needed,
which makes no difference (`C91_terminates`). -/
def saveUploadedFileF (more : Nat) (l : Luck) (u : Upload) (dst : Str) (d : Disk) : Disk × Option SaveErr :=
  match u.open' l d with
  | (d, none) => (d, some .source)
  | (d, some src) =>
    match d.openTrunc l dst 0o600 with
    | (d, none) => (src.close l d, some .target)
    | (d, some fd) =>
      match copyTo l fd (src.size d + 1 + more) src d with
      | (d, err) => (src.close l (d.close l fd), err)

/-- see `saveUploadedFileF` -/
def saveUploadedFile (l : Luck) (u : Upload) (dst : Str) (d : Disk) : Disk × Option SaveErr :=
  saveUploadedFileF 0 l u dst d

end Water
