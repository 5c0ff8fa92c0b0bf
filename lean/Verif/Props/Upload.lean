import Verif.Lemmas.Upload
/-
C91: saving an upload stores the whole file or reports an error. C92: it leaves no descriptor open. C93: the
permissions of the saved file.
-/
namespace Water
open Spec

theorem Started.apart {u : Upload} {dst : Str} {d d2 : Disk} {src : Reader} {fd i p : Nat} (h : Started u dst d d2 src fd i p)
    (ha : Apart d u dst) {path : Str} (hu : u = .temp path) {q : Nat} {n : Inode} (hq : d.names path = some q)
    (hn : d.files q = some n) : q ≠ i := by
  intro e
  rcases h.perm with ⟨hi, _⟩ | ⟨_, hi, _⟩
  · exact ha path hu (by rw [hq, hi, e])
  · rw [← e, hn] at hi
    cases hi

theorem Started.gives {u : Upload} {dst : Str} {d d2 : Disk} {src : Reader} {fd i p : Nat} (h : Started u dst d d2 src fd i p)
    (ha : Apart d u dst) {c : Str} (hc : Uploaded d u c) : Gives d2 fd i c src ∧ src.size d2 = c.length := by
  rcases h.source with ⟨s, hu, hs⟩ | ⟨path, q, n, k, hu, hs, hq, hn, _, hk, ho⟩
  · rw [hu] at hc
    rw [hs]
    exact ⟨hc, by rw [← (hc : s = c)]; rfl⟩
  · have hqi := h.apart ha hu hq hn
    rw [hu] at hc
    obtain ⟨q', n', hq', hn', hd⟩ := hc
    rw [hq] at hq'
    cases hq'
    rw [hn] at hn'
    cases hn'
    have hf : d2.files q = some n := by rw [h.files q hqi, hn]
    rw [hs]
    refine ⟨⟨hk, _, n, ho, hqi, hf, ?_⟩, ?_⟩
    · exact hd
    · show (d2.left k).length = _
      simp [Disk.left, ho, hf, ← hd]

/-- What is left once the descriptors are closed. -/
theorem save_after {l : Luck} {u : Upload} {dst : Str} {d d2 : Disk} {src : Reader} {fd i p : Nat}
    (h : Started u dst d d2 src fd i p) (fuel : Nat) :
    let d3 := (copyTo l fd fuel src d2).1
    let d' := src.close l (d3.close l fd)
    d'.names = d2.names ∧ d'.files = (d3.close l fd).files ∧ d'.open' = d.open' ∧
    (∀ j, j ≠ i → d'.files j = d2.files j) := by
  dsimp only
  obtain ⟨fn, fu, fo, fp, ff⟩ := copyTo_frame l fd fuel src d2
  have hj : ∀ j, j ≠ i → ((copyTo l fd fuel src d2).1.close l fd).files j = d2.files j := by
    intro j hj
    rw [Disk.close_other l, ff j]
    · intro y hy
      rw [h.target] at hy
      cases hy
      exact fun e => hj e.symm
    · intro y hy
      have := fp fd
      rw [hy, h.target] at this
      simp only [Option.map_some, Option.some.injEq, Prod.mk.injEq] at this
      rw [this.1]
      exact fun e => hj e.symm
  have hfd : ∀ k, ((copyTo l fd fuel src d2).1.close l fd).open' k = if k = fd then none else (copyTo l fd fuel src d2).1.open' k :=
    Disk.close_open l fd _
  rcases h.source with ⟨s, hu, hs⟩ | ⟨path, q, n, k, hu, hs, hq, hn, hk0, hk, ho⟩
  · subst hs
    refine ⟨(Disk.close_names _ _ _).trans fn, rfl, funext fun j => ?_, hj⟩
    show ((copyTo l fd fuel (.memory s) d2).1.close l fd).open' j = d.open' j
    rw [hfd]
    by_cases e : j = fd
    · rw [if_pos e, e, h.unused]
    · rw [if_neg e, fo j e (fun e => nomatch e), h.others j e (fun e => nomatch e)]
  · subst hs
    have hcl : (Reader.close l (.desc k) ((copyTo l fd fuel (.desc k) d2).1.close l fd)).files =
        ((copyTo l fd fuel (.desc k) d2).1.close l fd).files := Disk.close_reading l (fun x hx => by
      rw [hfd, if_neg hk] at hx
      have := fp k
      rw [hx, ho] at this
      simp only [Option.map_some, Option.some.injEq, Prod.mk.injEq] at this
      exact this.2)
    refine ⟨(Disk.close_names _ _ _).trans ((Disk.close_names _ _ _).trans fn), hcl, funext fun j => ?_, fun j h => ?_⟩
    · show (Disk.close l k ((copyTo l fd fuel (.desc k) d2).1.close l fd)).open' j = d.open' j
      rw [Disk.close_open, hfd]
      by_cases e : j = k
      · rw [if_pos e, e, hk0]
      · rw [if_neg e]
        by_cases e' : j = fd
        · rw [if_pos e', e', h.unused]
        · rw [if_neg e', fo j e' (fun x => e (by cases x; rfl)), h.others j e' (fun x => e (by cases x; rfl))]
    · rw [hcl]
      exact hj j h

/-- what stays as it was is still as it was when only the file `i` behind `dst` was changed further -/
theorem Started.onlyAt {u : Upload} {dst : Str} {d d2 d' : Disk} {src : Reader} {fd i p : Nat} (h : Started u dst d d2 src fd i p)
    (hn : d'.names = d2.names) (hf : ∀ j, j ≠ i → d'.files j = d2.files j) : OnlyAt dst d d' := by
  refine ⟨fun p hp => by rw [hn]; exact h.only.names p hp, fun j hj => by rw [hn]; exact h.only.stays j hj, fun j hj hj2 => ?_⟩
  have : j ≠ i := by
    intro e
    rcases h.perm with ⟨hi, _⟩ | ⟨_, hi, _⟩
    · exact hj (by rw [hi, e])
    · exact hj2 (by rw [e]; exact hi)
  rw [hf j this]
  exact h.only.files j hj hj2

/-- C91, partial: if `SaveUploadedFile` returns nil, `dst` leads to a file with exactly the uploaded bytes, and nothing
else on the disk has changed. Missing: `dst` must not lead to the temporary file of the upload itself, and closing the
file must lose nothing, since the error of `Close` is thrown away (`C91_refuted_self`, `C91_refuted_close`). -/
theorem C91_saved_partial {l : Luck} {u : Upload} {dst c : Str} {d d' : Disk} (hl : Reliable l) (ha : Apart d u dst)
    (hc : Uploaded d u c) (h : saveUploadedFile l u dst d = (d', none)) : Holds d' dst c ∧ OnlyAt dst d d' := by
  unfold saveUploadedFile at h
  rcases save_cases 0 l u dst d with ⟨_, _, e, _⟩ | ⟨_, _, e, _⟩ | ⟨d2, src, fd, i, p, hs, _, e⟩
  · rw [e] at h; cases h
  · rw [e] at h; cases h
  · rw [e] at h
    obtain ⟨hd, herr⟩ := Prod.mk.inj h
    obtain ⟨hg, hsz⟩ := hs.gives ha hc
    obtain ⟨got, _, hfin, hall, _⟩ := copyTo_spec (l := l) (out := true) (src.size d2 + 1 + 0) c src d2 { data := [], perm := p }
      (by omega) hg hs.target hs.empty
    obtain ⟨an, af, _, aj⟩ := save_after (l := l) hs (src.size d2 + 1 + 0)
    rw [hd] at an af aj
    refine ⟨⟨i, _, by rw [an]; exact hs.name, by rw [af, Disk.close_files hl, hfin], ?_⟩, hs.onlyAt an aj⟩
    rw [hall herr]
    rfl

/-- C91: whatever the operating system does, and whatever is returned: either the disk is as before and the error is
from opening a file, or `dst` leads to a file with a beginning of the uploaded bytes; nothing else has changed. -/
theorem C91_prefix {l : Luck} {u : Upload} {dst c : Str} {d : Disk} (ha : Apart d u dst) (hc : Uploaded d u c) :
    let r := saveUploadedFile l u dst d
    ((r.2 = some .source ∨ r.2 = some .target) ∧ r.1.names = d.names ∧ r.1.files = d.files) ∨
    ((∃ c', c' <+: c ∧ Holds r.1 dst c') ∧ OnlyAt dst d r.1) := by
  dsimp only
  unfold saveUploadedFile
  rcases save_cases 0 l u dst d with ⟨d', ho, e, hn, hf, _⟩ | ⟨d', ho, e, hn, hf, _⟩ | ⟨d2, src, fd, i, p, hs, _, e⟩
  · rw [e]
    exact .inl ⟨.inl rfl, hn, hf⟩
  · rw [e]
    exact .inl ⟨.inr rfl, hn, hf⟩
  · rw [e]
    obtain ⟨hg, hsz⟩ := hs.gives ha hc
    obtain ⟨got, hgot, hfin, _⟩ := copyTo_spec (l := l) (out := true) (src.size d2 + 1 + 0) c src d2 { data := [], perm := p }
      (by omega) hg hs.target hs.empty
    obtain ⟨an, af, _, aj⟩ := save_after (l := l) hs (src.size d2 + 1 + 0)
    obtain ⟨m, hm, _, hpre⟩ := Disk.close_prefix l fd _ hfin
    exact .inr ⟨⟨m.data, hpre.trans hgot, i, m, by rw [an]; exact hs.name, by rw [af]; exact hm, rfl⟩, hs.onlyAt an aj⟩

/-- C91: if the operating system has no reason to fail, nil is returned. -/
theorem C91_smooth {l : Luck} {u : Upload} {dst c : Str} {d : Disk} (hl : Smooth l d) (ha : Apart d u dst)
    (hwf : ∀ i, d.names dst = some i → d.files i ≠ none) (hc : Uploaded d u c) : (saveUploadedFile l u dst d).2 = none := by
  have htr : ∀ e : Disk, e.names = d.names → e.files = d.files → e.open' (l.pick e.time) = none → (e.openTrunc l dst 0o600).2 ≠ none := by
    intro e hn hf ho
    unfold Disk.openTrunc
    dsimp only
    rw [if_neg (by rw [hl.opens, ho]; simp), hn, hf]
    split
    · rename_i i hi
      split
      · rename_i hj
        exact absurd hj (hwf i hi)
      · simp
    · rw [if_neg (by rw [hl.freeFile]; simp)]
      simp
  have hnum : (u.open' l d).1.open' (l.pick (u.open' l d).1.time) = none := by
    cases u with
    | memory s => exact hl.freeDesc _
    | temp path =>
      simp only [Upload.open', Disk.openRead]
      split
      · exact hl.freeDesc _
      · split
        · exact hl.freeDesc _
        · have hne : l.pick (d.time + 1) ≠ l.pick d.time := fun e => by
            have := hl.apart _ _ e
            omega
          show d.open'.set _ _ (l.pick (d.time + 1)) = none
          rw [set_off _ _ hne]
          exact hl.freeDesc _
  have hopen : (u.open' l d).2 ≠ none := by
    cases u with
    | memory s => simp [Upload.open']
    | temp path =>
      obtain ⟨q, n, hq, hn, _⟩ := hc
      simp only [Upload.open', Disk.openRead, hq]
      rw [if_neg (by rw [hl.opens, hl.freeDesc, hn]; simp)]
      simp
  unfold saveUploadedFile
  rcases save_cases 0 l u dst d with ⟨d', ho, _⟩ | ⟨d', ho, _⟩ | ⟨d2, src, fd, i, p, hs, _, e⟩
  · exact absurd ho hopen
  · refine absurd ho (htr _ ?_ ?_ hnum)
    · rcases u.open_cases l d with ⟨d1, h, hn, _⟩ | ⟨s, hu, h⟩ | ⟨path, q, n, k, d1, hu, h, hq, hqn, hk, hn, _⟩
      · rw [h]; exact hn
      · rw [h]
      · rw [h]; exact hn
    · rcases u.open_cases l d with ⟨d1, h, _, hn, _⟩ | ⟨s, hu, h⟩ | ⟨path, q, n, k, d1, hu, h, hq, hqn, hk, _, hn, _⟩
      · rw [h]; exact hn
      · rw [h]
      · rw [h]; exact hn
  · rw [e]
    obtain ⟨hg, hsz⟩ := hs.gives ha hc
    obtain ⟨_, _, _, _, hok, _⟩ := copyTo_spec (l := l) (out := true) (src.size d2 + 1 + 0) c src d2 { data := [], perm := p }
      (by omega) hg hs.target hs.empty
    exact hok hl.moves

/-- C91: the copy loop ends: giving it more steps makes no difference, whatever the files and the operating system. -/
theorem C91_terminates (more : Nat) (l : Luck) (u : Upload) (dst : Str) (d : Disk) :
    saveUploadedFileF more l u dst d = saveUploadedFile l u dst d := by
  unfold saveUploadedFile
  have key : ∀ d2 src fd i p, Started u dst d d2 src fd i p →
      copyTo l fd (src.size d2 + 1 + more) src d2 = copyTo l fd (src.size d2 + 1 + 0) src d2 := by
    intro d2 src fd i p hs
    have go : ∀ c, Gives d2 fd i c src → src.size d2 = c.length →
        copyTo l fd (src.size d2 + 1 + more) src d2 = copyTo l fd (src.size d2 + 1 + 0) src d2 := by
      intro c hg hsz
      obtain ⟨_, _, _, _, _, hm⟩ := copyTo_spec (l := l) (out := true) (src.size d2 + 1) c src d2 { data := [], perm := p }
        (by omega) hg hs.target hs.empty
      rw [hm more, hm 0]
    rcases hs.source with ⟨s, hu, hsrc⟩ | ⟨path, q, n, k, hu, hsrc, hq, hn, _, hk, ho⟩
    · subst hsrc
      exact go s rfl rfl
    · subst hsrc
      by_cases hqi : q = i
      · have hleft : d2.left k = [] := by simp [Disk.left, ho, hqi, hs.empty]
        have hsz : Reader.size (.desc k) d2 = 0 := by simp [Reader.size, hleft]
        rw [hsz]
        have h1 : 0 + 1 + more = more + 1 := by omega
        rw [h1]
        simp only [copyTo, Reader.read, hleft]
        cases l.fails d2.time <;> rfl
      · have hf : d2.files q = some n := by rw [hs.files q hqi, hn]
        exact go n.data ⟨hk, _, n, ho, hqi, hf, rfl⟩ (by simp [Reader.size, Disk.left, ho, hf])
  unfold saveUploadedFileF
  rcases hu : u.open' l d with ⟨d1, src⟩
  cases src with
  | none => rfl
  | some src =>
    dsimp only
    rcases ht : d1.openTrunc l dst 0o600 with ⟨d2, fd⟩
    cases fd with
    | none => rfl
    | some fd =>
      dsimp only
      have hst : ∃ i p, Started u dst d d2 src fd i p := by
        rcases save_cases 0 l u dst d with ⟨_, h, _⟩ | ⟨_, h, _⟩ | ⟨d2', src', fd', i, p, hs, ⟨d1', h1, h2⟩, _⟩
        · rw [hu] at h; cases h
        · rw [hu, ht] at h; cases h
        · rw [hu] at h1
          cases h1
          rw [ht] at h2
          cases h2
          exact ⟨i, p, hs⟩
      obtain ⟨i, p, hs⟩ := hst
      rw [key _ _ _ _ _ hs]

/-- C92: `SaveUploadedFile` leaves exactly the descriptors open that were open before, whatever it returns and
whatever fails on the way. -/
theorem C92_no_leak (l : Luck) (u : Upload) (dst : Str) (d : Disk) : (saveUploadedFile l u dst d).1.open' = d.open' := by
  unfold saveUploadedFile
  rcases save_cases 0 l u dst d with ⟨d', _, e, _, _, ho⟩ | ⟨d', _, e, _, _, ho⟩ | ⟨d2, src, fd, i, p, hs, _, e⟩
  · rw [e]; exact ho
  · rw [e]; exact ho
  · rw [e]
    exact (save_after hs _).2.2.1

/-- C93: a file created by `SaveUploadedFile` can be used by its owner only; a file that was there keeps its
permissions, whatever they are. -/
theorem C93_permissions (l : Luck) (u : Upload) (dst : Str) (d : Disk) :
    (∀ i n, d.names dst = some i → d.files i = some n → ∃ m, (saveUploadedFile l u dst d).1.names dst = some i ∧
      (saveUploadedFile l u dst d).1.files i = some m ∧ m.perm = n.perm) ∧
    (d.names dst = none → ∀ i, (saveUploadedFile l u dst d).1.names dst = some i →
      ∃ m, (saveUploadedFile l u dst d).1.files i = some m ∧ m.perm &&& 0o077 = 0 ∧ m.perm &&& d.umask = 0) := by
  unfold saveUploadedFile
  rcases save_cases 0 l u dst d with ⟨d', _, e, hn, hf, _⟩ | ⟨d', _, e, hn, hf, _⟩ | ⟨d2, src, fd, i, p, hs, _, e⟩
  · rw [e]
    refine ⟨fun i n hi hin => ⟨n, by rw [← hi, hn], by rw [← hin, hf], rfl⟩, fun h i hi => ?_⟩
    rw [hn, h] at hi
    cases hi
  · rw [e]
    refine ⟨fun i n hi hin => ⟨n, by rw [← hi, hn], by rw [← hin, hf], rfl⟩, fun h i hi => ?_⟩
    rw [hn, h] at hi
    cases hi
  · rw [e]
    obtain ⟨an, af, _, _⟩ := save_after (l := l) hs (src.size d2 + 1 + 0)
    have hp := copyTo_perm l fd (src.size d2 + 1 + 0) src d2 i
    rw [hs.empty] at hp
    obtain ⟨x, hx, hxp⟩ := Option.map_eq_some_iff.1 hp
    obtain ⟨m, hm, hmp, _⟩ := Disk.close_prefix l fd _ hx
    rw [← af] at hm
    have hperm : m.perm = p := hmp.trans hxp
    rcases hs.perm with ⟨hi, n, hn, hpn⟩ | ⟨hi, hn, hpn⟩
    · refine ⟨fun j n' hj hn' => ?_, fun h => ?_⟩
      · rw [hi] at hj
        cases hj
        rw [hn] at hn'
        cases hn'
        exact ⟨m, by rw [an]; exact hs.name, hm, by rw [hperm, hpn]⟩
      · rw [hi] at h; cases h
    · refine ⟨fun j n' hj _ => (by rw [hi] at hj; cases hj), fun _ j hj => ?_⟩
      have hj' : some j = some i := by rw [← hj, an]; exact hs.name
      cases hj'
      refine ⟨m, hm, ?_, ?_⟩
      · rw [hperm, hpn, Nat.and_comm, ← Nat.and_assoc]
        simp
      · rw [hperm, hpn]
        apply Nat.eq_of_testBit_eq
        intro b
        have hb : Nat.testBit 0o600 b = (Nat.testBit 0o600 b && Nat.testBit 0o777 b) := by
          rw [← Nat.testBit_and]
          rfl
        simp only [Nat.testBit_and, Nat.testBit_xor, Nat.zero_testBit]
        rw [hb]
        cases Nat.testBit d.umask b <;> cases Nat.testBit 511 b <;> simp

namespace Demo

/-- a disk with a temporary file of five bytes and a file `old` -/
def disk0 : Disk where
  names := fun p => if p = b!"/tmp/up" then some 1 else if p = b!"old" then some 2 else none
  files := fun i => if i = 1 then some { data := b!"hello", perm := 0o600 } else if i = 2 then some { data := b!"previous", perm := 0o644 } else none
  open' := fun k => if k < 3 then some { file := 0, pos := 0, out := true } else none
  umask := 0o022
  time := 0

/-- an operating system that moves two bytes at a time -/
def luck0 : Luck where
  openFails := fun _ => false
  pick := fun t => t + 3
  moves := fun _ => 2
  fails := fun _ => false
  early := fun _ => false
  lost := fun _ => none

/-- the bytes and permissions behind a name -/
def behind (d : Disk) (p : Str) : Option (Str × Nat) := (d.names p).bind (fun i => (d.files i).map (fun n => (n.data, n.perm)))

theorem luck0_smooth : Smooth luck0 disk0 := by
  refine ⟨fun _ => rfl, fun _ => rfl, fun t => ?_, fun t => ?_, fun t t' h => ?_⟩
  · simp only [disk0, luck0]
    rw [if_neg (by omega)]
  · simp only [disk0, luck0]
    rw [if_neg (by omega), if_neg (by omega)]
  · simp only [luck0] at h
    omega

/-- Saving over an existing longer file: it holds the upload and nothing of what it held. -/
example : (saveUploadedFile luck0 (.temp b!"/tmp/up") b!"old" disk0).2 = none ∧
    behind (saveUploadedFile luck0 (.temp b!"/tmp/up") b!"old" disk0).1 b!"old" = some (b!"hello", 0o644) ∧
    behind (saveUploadedFile luck0 (.temp b!"/tmp/up") b!"old" disk0).1 b!"/tmp/up" = some (b!"hello", 0o600) := by decide +kernel

/-- The hypotheses of `C91_saved_partial` and `C91_smooth` hold of it. -/
example : Reliable luck0 ∧ Apart disk0 (.temp b!"/tmp/up") b!"old" ∧ Uploaded disk0 (.temp b!"/tmp/up") b!"hello" :=
  ⟨fun _ => rfl, fun p h => by cases h; decide +kernel, 1, { data := b!"hello", perm := 0o600 }, by decide +kernel, by decide +kernel, rfl⟩

/-- A new file. -/
example : (saveUploadedFile luck0 (.memory b!"abc") b!"new" disk0).2 = none ∧
    behind (saveUploadedFile luck0 (.memory b!"abc") b!"new" disk0).1 b!"new" = some (b!"abc", 0o600) := by decide +kernel

/-- A write fails after one byte: the error is reported, the byte stays. -/
example :
    let l := { luck0 with fails := fun t => t == 3, moves := fun _ => 1 }
    (saveUploadedFile l (.temp b!"/tmp/up") b!"old" disk0).2 = some .write ∧
    behind (saveUploadedFile l (.temp b!"/tmp/up") b!"old" disk0).1 b!"old" = some (b!"h", 0o644) := by decide +kernel

/-- No room for a second descriptor: the first is closed again. -/
example :
    let l := { luck0 with openFails := fun t => t == 1 }
    (saveUploadedFile l (.temp b!"/tmp/up") b!"old" disk0).2 = some .target ∧
    (List.range 8).map (fun k => ((saveUploadedFile l (.temp b!"/tmp/up") b!"old" disk0).1.open' k).isSome) =
      [true, true, true, false, false, false, false, false] := by decide +kernel

end Demo

/-- C91, as stated, is false: saving an upload over its own temporary file empties it before it is read; nil is
returned and the upload is gone. -/
theorem C91_refuted_self : ¬ ∀ (l : Luck) (u : Upload) (dst c : Str) (d d' : Disk), Reliable l → Uploaded d u c →
    saveUploadedFile l u dst d = (d', none) → Holds d' dst c := by
  intro h
  obtain ⟨i, n, hi, hn, hd⟩ := h Demo.luck0 (.temp b!"/tmp/up") b!"/tmp/up" b!"hello" Demo.disk0
    (saveUploadedFile Demo.luck0 (.temp b!"/tmp/up") b!"/tmp/up" Demo.disk0).1 (fun _ => rfl)
    ⟨1, { data := b!"hello", perm := 0o600 }, by decide +kernel, by decide +kernel, rfl⟩
    (Prod.ext rfl (by show (saveUploadedFile _ _ _ _).2 = none; decide +kernel))
  have : Demo.behind (saveUploadedFile Demo.luck0 (.temp b!"/tmp/up") b!"/tmp/up" Demo.disk0).1 b!"/tmp/up" = some ([], 0o600) := by
    decide +kernel
  simp only [Demo.behind, hi, Option.bind_some, hn, Option.map_some, hd] at this
  exact absurd (congrArg (fun x => x.1.length) (Option.some.inj this)) (by simp)

/-- C91, as stated, is false: if the data do not fit when the file is closed, the error of `Close` is thrown away; nil
is returned and bytes are missing. -/
theorem C91_refuted_close : ¬ ∀ (l : Luck) (u : Upload) (dst c : Str) (d d' : Disk), Apart d u dst → Uploaded d u c →
    saveUploadedFile l u dst d = (d', none) → Holds d' dst c := by
  intro h
  obtain ⟨i, n, hi, hn, hd⟩ := h { Demo.luck0 with lost := fun _ => some 3 } (.memory b!"hello") b!"new" b!"hello" Demo.disk0
    (saveUploadedFile { Demo.luck0 with lost := fun _ => some 3 } (.memory b!"hello") b!"new" Demo.disk0).1
    (fun _ h => nomatch h) rfl
    (Prod.ext rfl (by show (saveUploadedFile _ _ _ _).2 = none; decide +kernel))
  have : Demo.behind (saveUploadedFile { Demo.luck0 with lost := fun _ => some 3 } (.memory b!"hello") b!"new" Demo.disk0).1 b!"new" =
      some (b!"hel", 0o600) := by
    decide +kernel
  simp only [Demo.behind, hi, Option.bind_some, hn, Option.map_some, hd] at this
  exact absurd (congrArg (fun x => x.1.length) (Option.some.inj this)) (by simp)

end Water
