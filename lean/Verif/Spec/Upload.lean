import Verif.Model.Upload
/- What saving an upload should do, in terms of names, files and bytes only. -/
namespace Water.Spec

/-- The bytes the client uploaded: they are in memory or in a temporary file that exists. -/
def Uploaded (d : Disk) : Upload → Str → Prop
  | .memory s, c => s = c
  | .temp path, c => ∃ i n, d.names path = some i ∧ d.files i = some n ∧ n.data = c

/-- The name `path` leads to a file with the bytes `c`. -/
def Holds (d : Disk) (path c : Str) : Prop := ∃ i n, d.names path = some i ∧ d.files i = some n ∧ n.data = c

/-- `path` is not another name of the temporary file of the upload. -/
def Apart (d : Disk) (u : Upload) (path : Str) : Prop := ∀ p, u = .temp p → d.names p ≠ d.names path

/-- Nothing that reached the kernel is lost when a descriptor is closed. -/
def Reliable (l : Luck) : Prop := ∀ t, l.lost t = none

/-- The operating system has no reason to fail: no call fails, and there are unused numbers for descriptors and files
at every time. -/
structure Smooth (l : Luck) (d : Disk) : Prop where
  opens : ∀ t, l.openFails t = false
  moves : ∀ t, l.fails t = false
  freeDesc : ∀ t, d.open' (l.pick t) = none
  freeFile : ∀ t, d.files (l.pick t) = none
  apart : ∀ t t', l.pick t = l.pick t' → t = t'

/-- The names other than `path`, and the files that `path` does not lead to in `d`, are in `d'` as in `d`. -/
structure OnlyAt (path : Str) (d d' : Disk) : Prop where
  names : ∀ p, p ≠ path → d'.names p = d.names p
  stays : ∀ i, d.names path = some i → d'.names path = some i
  files : ∀ i, d.names path ≠ some i → d.files i ≠ none → d'.files i = d.files i

end Water.Spec
