import Verif.Props.ServeFile
import Verif.Props.Walk
/-
C49, C75: what a static route sends for a directory asked for with a slash at the end.
-/
namespace Water
open Spec
variable {ω : Type}

/-- every path is a directory and a last element -/
theorem path_parts (j : Str) : ∃ dir last, j = dir ++ last ∧ slash ∉ last ∧ (dir = [] ∨ dir.getLast? = some slash) := by
  refine ⟨splitDir j, splitFile j, ?_, ?_, ?_⟩
  · unfold splitDir splitFile
    rw [← List.reverse_append, List.takeWhile_append_dropWhile, List.reverse_reverse]
  · intro h
    unfold splitFile at h
    have := List.all_takeWhile (p := (· != slash)) (l := j.reverse)
    rw [List.all_eq_true] at this
    have := this _ (List.mem_reverse.1 h)
    simp at this
  · unfold splitDir
    cases h : j.reverse.dropWhile (· != slash) with
    | nil => left; rfl
    | cons c t =>
      right
      have := List.head?_dropWhile_not (p := (· != slash)) (l := j.reverse)
      rw [h] at this
      simp only [List.head?_cons] at this
      rw [List.getLast?_reverse, List.head?_cons]
      have hc : c = slash := by simpa using this
      rw [hc]

theorem splitB_last {dir last : Str} (hs : slash ∉ last) (hd : dir = [] ∨ dir.getLast? = some slash) :
    (splitB slash (dir ++ last)).getLast? = some last := by
  rcases hd with rfl | hd
  · rw [List.nil_append, splitB_of_not_mem hs]; rfl
  · obtain ⟨d, rfl⟩ := List.getLast?_eq_some_iff.1 hd
    rw [List.append_assoc, List.singleton_append, splitB_append_any, splitB_of_not_mem hs, List.getLast?_concat]

/-- A path that leads down from everywhere has no `..` at the end once it is clean. -/
theorem clean_last {j y : Str} (hj : j = pathClean y) {X : List Str} (hw : (∀ cwd : List Str, walk cwd j = X) ∨ ∀ cwd : List Str, walk cwd j = cwd ++ X)
    {dir last : Str} (hs : slash ∉ last) (hd : dir = [] ∨ dir.getLast? = some slash) (he : j = dir ++ last) : last ≠ b!".." := by
  rintro rfl
  have hl := splitB_last hs hd
  rw [← he] at hl
  obtain ⟨k, rs, hrs, h1, h2⟩ := clean_walk y
  have hwy : ∀ cwd, walk cwd y = walk cwd j := fun cwd => by rw [hj, walk_clean]
  have hns : ∀ e ∈ List.replicate k b!".." ++ rs, slash ∉ e := by
    intro e he
    rcases List.mem_append.1 he with he | he
    · rw [List.eq_of_mem_replicate he]; decide
    · exact (hrs e he).flat
  by_cases hy : y.head? = some slash
  · obtain ⟨_, hc, _⟩ := h1 hy
    rw [hj, hc, splitB_cons_slash] at hl
    by_cases hne : rs = []
    · subst hne
      revert hl
      decide
    · rw [splitB_join hne (fun e he => (hrs e he).flat)] at hl
      cases hr : rs.getLast? with
      | none => exact hne (List.getLast?_eq_none_iff.1 hr)
      | some x =>
        rw [show ([] :: rs).getLast? = rs.getLast? by cases rs with | nil => exact absurd rfl hne | cons a b => rfl, hr] at hl
        cases hl
        exact (hrs _ (List.mem_of_getLast? hr)).up rfl
  · obtain ⟨hc, hwalk⟩ := h2 hy
    by_cases hne : List.replicate k b!".." ++ rs = []
    · rw [hj, hc, if_pos hne] at hl
      revert hl
      decide
    · rw [hj, hc, if_neg hne, splitB_join hne hns] at hl
      have hrs0 : rs = [] := by
        cases hr : rs.getLast? with
        | none => exact List.getLast?_eq_none_iff.1 hr
        | some x =>
          rw [List.getLast?_append, hr] at hl
          cases hl
          exact absurd rfl (hrs _ (List.mem_of_getLast? hr)).up
      subst hrs0
      cases k with
      | zero => exact hne rfl
      | succ k =>
        -- from a directory, it leads up
        have a1 := hwalk []
        have a2 := hwalk [b!"a"]
        have a3 := hwalk (List.replicate (k + 2) b!"a")
        rw [hwy] at a1 a2 a3
        simp only [List.length_nil, Nat.zero_sub, List.take_nil, List.append_nil, List.length_singleton, List.length_replicate] at a1 a2 a3
        rw [show 1 - (k + 1) = 0 by omega, List.take_zero] at a2
        rw [show k + 2 - (k + 1) = 1 by omega] at a3
        rcases hw with h | h
        · rw [h] at a1 a3
          rw [a1] at a3
          simp [List.replicate_succ] at a3
        · rw [h] at a2
          simp at a2

/-- a path without `..` leads down -/
theorem walk_down_path {name : Str} (h : b!".." ∉ splitB slash name) (cwd : List Str) :
    walk cwd name = (if name.head? = some slash then [] else cwd) ++ walk [] name := by
  unfold walk
  rw [walk_down h]
  congr 1
  split <;> rfl

theorem walk_join (name idx : Str) (cwd : List Str) (hidx : slash ∉ idx) : walk cwd (pathJoin name idx) = walkStep (walk cwd name) idx := by
  unfold pathJoin
  by_cases hn : name = []
  · subst hn
    rw [if_neg (by simp)]
    by_cases hi : idx = []
    · subst hi; rfl
    · rw [if_pos hi, walk_clean]
      exact walk_name (dir := []) hidx (Or.inl rfl) cwd
  · rw [if_pos hn, walk_clean, List.append_assoc, List.singleton_append, walk_append cwd hn, splitB_of_not_mem hidx]
    rfl

/-- C49: for the directory `name`, asked for with a slash at the end, a static route sends the file in that place **from the working
directory of the process** (or from the root of all files, if `name` begins with a slash): wherever the files of the route are. -/
theorem C49_place {name idx : Str} (hn : b!".." ∉ splitB slash name) (hidx : idx = [] ∨ FileName idx) (cwd : List Str) :
    walk cwd (dirPath (splitDir (pathJoin name idx)) (splitFile (pathJoin name idx))) =
      (if name.head? = some slash then [] else cwd) ++ walk [] name ++ (if idx = [] then [] else [idx]) := by
  have hflat : slash ∉ idx := by
    rcases hidx with rfl | h
    · simp
    · exact h.flat
  have hstep : ∀ D, walkStep D idx = D ++ (if idx = [] then [] else [idx]) := by
    intro D
    unfold walkStep
    rcases hidx with rfl | h
    · simp
    · rw [if_neg (fun hh => hh.elim h.some h.self), if_neg h.up, if_neg h.some]
  have hw : ∀ cwd, walk cwd (pathJoin name idx) = (if name.head? = some slash then [] else cwd) ++ walk [] name ++ (if idx = [] then [] else [idx]) := by
    intro cwd
    rw [walk_join name idx cwd hflat, hstep, walk_down_path hn]
  rw [← hw cwd]
  obtain ⟨dir, last, hj, hs, hd⟩ := path_parts (pathJoin name idx)
  have hl : last ≠ b!".." := by
    by_cases hemp : pathJoin name idx = []
    · rw [hemp] at hj
      have := (List.append_eq_nil_iff.1 hj.symm).2
      rw [this]; decide
    · have hy : ∃ y, pathJoin name idx = pathClean y := by
        unfold pathJoin at hemp ⊢
        split
        · exact ⟨_, rfl⟩
        · split
          · exact ⟨_, rfl⟩
          · rename_i h1 h2
            rw [if_neg h1, if_neg h2] at hemp
            exact absurd rfl hemp
      obtain ⟨y, hy⟩ := hy
      refine clean_last hy (X := walk [] name ++ (if idx = [] then [] else [idx])) ?_ hs hd hj
      by_cases hh : name.head? = some slash
      · left; intro cwd; rw [hw, if_pos hh, List.nil_append]
      · right; intro cwd; rw [hw, if_neg hh, List.append_assoc]
  rw [hj, (split_path hs hd).1, (split_path hs hd).2, opened_path hs hd, if_neg hl, walk_clean]

section
variable {o : Oracle} {req : Req} {nx : St ω → Out × St ω} {k : Nat} {s : St ω} {fs : FS ω} {http : Http ω} {io : ContentIO ω} {disk : OsFiles ω}
  {opt : StaticOptions ω} {name : Str} {w1 w2 : ω} {f : Nat} {i : FileInfo}

/-- C49: a directory asked for with a slash at the end is handed to `http.ServeFile`. -/
theorem C49_index (hs : http.serveFile = serveFileStd io o disk) (hp : s.ctx.params b!"*0" = some name)
    (hopen : fs.openFile name s.world = (w1, some f)) (hstat : fs.stat f w1 = (w2, some i)) (hd : i.dir = true) (hl : req.path.getLast? = some slash) :
    exec o req nx k (staticHandler fs http opt) s =
      closing fs f (exec o req nx k (serveFileStd io o disk (pathJoin name opt.indexFile)) (expiring opt { s with world := w2 })) := by
  rw [exec_static_found hp hopen hstat, hd, if_pos (show true = true from rfl)]
  unfold staticDir
  have h1 : hasSuffix req.path [slash] = true := hasSuffix_one.2 hl
  have h2 : hasSuffix (pathClean req.path ++ [slash]) [slash] = true := hasSuffix_one.2 (by simp)
  simp only [h1, if_true, h2, Bool.not_true, Bool.false_eq_true, if_false, hs]

/-- C49: the file that is sent for it is the one that `http.ServeFile` opens: its path is the one of `C49_place`. The files of the
route (`fs`) have no say in what is sent. -/
theorem C49_index_file (hs : http.serveFile = serveFileStd io o disk) (hp : s.ctx.params b!"*0" = some name)
    (hopen : fs.openFile name s.world = (w1, some f)) (hstat : fs.stat f w1 = (w2, some i)) (hd : i.dir = true) (hl : req.path.getLast? = some slash)
    (hdot : ¬ HasDotDot req.path) {w3 w4 : ω} {f' : Nat} {i' : FileInfo}
    (hopen' : disk.fs.openFile (dirPath (splitDir (pathJoin name opt.indexFile)) (splitFile (pathJoin name opt.indexFile))) (expiring opt { s with world := w2 }).world = (w3, some f'))
    (hstat' : disk.fs.stat f' w3 = (w4, some i')) (hd' : i'.dir = false) :
    exec o req nx k (staticHandler fs http opt) s =
      closing fs f (closing disk.fs f' (exec o req nx k (serveContentStd io o i'.name i'.modTime f') { expiring opt { s with world := w2 } with world := w4 })) := by
  have hni : ¬ NamesIndex req.path := by
    rintro ⟨d, hd⟩
    rw [hd, List.getLast?_append, show (b!"/index.html").getLast? = some 108 from rfl, Option.some_or] at hl
    exact absurd hl (by decide)
  rw [C49_index hs hp hopen hstat hd hl, serveFile_opened hdot hni hopen', hstat']
  dsimp only
  rw [serveOpened_file hd']

/-- C49: a path with `..` in it gets no directory. -/
theorem C49_index_dots (hs : http.serveFile = serveFileStd io o disk) (hp : s.ctx.params b!"*0" = some name)
    (hopen : fs.openFile name s.world = (w1, some f)) (hstat : fs.stat f w1 = (w2, some i)) (hd : i.dir = true) (hl : req.path.getLast? = some slash)
    (hdot : HasDotDot req.path) :
    exec o req nx k (staticHandler fs http opt) s =
      closing fs f (exec o req nx k (.httpError 400 b!"invalid URL path") (expiring opt { s with world := w2 })) := by
  rw [C49_index hs hp hopen hstat hd hl, serveFile_dots hdot]

end

namespace Demo

/-- the operating system of `unixOS`, where the root directory has two entries -/
def unixDisk (names : List Str) : OsFiles (List Str) where
  fs := unixOS
  openErr := fun _ _ => .notExist
  statErr := fun _ _ => .other
  entries := fun _ w => (w, some (names.map (·, true)))

/-- net/http for it -/
def unixStd (names : List Str) : Http (List Str) where
  redirect := fun url => .do (.setHeader b!"Location" url) (.do (.rawWriteHeader 302) .ret)
  serveFile := serveFileStd siteIO chainO (unixDisk names)
  serveContent := serveContentStd siteIO chainO

/-- serve one request by a router with `Static("/static", "/var/www")`: status, body, paths opened -/
def unixAsks (names : List Str) (path : Str) : Option (Int × Str × List Str) :=
  match runOps [] (.newRouter :: staticOps 0 (dirFS unixOS b!"/var/www") (unixStd names)
      (staticOptions (dirFS unixOS) b!"/static" b!"/var/www")) with
  | .error _ => none
  | .ok heap =>
    match handler rx heap 0 [] with
    | .error _ => none
    | .ok e =>
      let sv := serve rx chainO e .new (at' path) Writer.new none []
      (received sv.rw.log).map (·, receivedBody sv.rw.log, sv.world)

/-- a file, a path with `..`, a directory; the directory `d/` of the route is looked for in the working directory -/
example : unixAsks [] b!"/static/f.txt" = some (200, b!"index", [b!"/var/www/f.txt"]) ∧
    unixAsks [] b!"/static/x/..//" = some (400, b!"invalid URL path\n", [b!"/var/www"]) ∧
    unixAsks [] b!"/static/d/" = some (404, b!"404 page not found\n", [b!"/var/www/d", b!"d"]) ∧
    dirPath (splitDir (pathJoin b!"d/" [])) (splitFile (pathJoin b!"d/" [])) = b!"d" := by decide +kernel

end Demo

open Demo in
/-- C75 as stated fails, with the `http.ServeFile` of net/http: `Static("/static", "/var/www")` answers the request `/static///` with
the list of what is in the root directory of the operating system. -/
theorem C75_listed_refuted : ∃ a b : List Str,
    unixAsks a b!"/static///" = some (200, listing (a.map (· ++ b!"/")), [b!"/var/www", b!"/", b!"/index.html"]) ∧
    unixAsks b b!"/static///" = some (200, listing (b.map (· ++ b!"/")), [b!"/var/www", b!"/", b!"/index.html"]) ∧
    listing (a.map (· ++ b!"/")) ≠ listing (b.map (· ++ b!"/")) := by
  exact ⟨[b!"etc"], [b!"usr"], by decide +kernel, by decide +kernel, by decide +kernel⟩

end Water
