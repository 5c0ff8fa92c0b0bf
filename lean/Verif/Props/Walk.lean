import Verif.Lemmas.Walk
import Verif.Props.Files
/-
C75: `Static(uri, root)` and the directory `root`.
-/
namespace Water
open Spec
variable {ω : Type}

/-! ### C75 -/

/-- C75: `http.Dir(root)` opens the file that has the requested name in `root` taken as the root of the file system:
where the path leads from any working directory is `root` followed by where the name leads from `/`. -/
theorem C75_rooted (cwd : List Str) (root name : Str) :
    walk cwd (dirPath root name) = walk cwd root ++ walk [] (slash :: name) := walk_dirPath cwd root name

/-- C75: whatever name is requested, the path that is opened is inside `root`, for every working directory. -/
theorem C75_inside (cwd : List Str) (root name : Str) : Inside cwd root (dirPath root name) := by
  rw [Inside, C75_rooted]
  exact List.prefix_append _ _

/-- C75 (partial): the answer of a route made by `Static(uri, root)` does not depend on what is outside of `root`: two
operating systems that agree on the files inside `root` give the same answer - unless a directory is found and the path
ends with a slash or stands for the root.
Missing: that case, see `C75_refuted`. -/
theorem C75_contained_partial {o : Oracle} {req : Req} {nx : St ω → Out × St ω} {k : Nat} {s : St ω} {os os' : FS ω}
    {http http' : Http ω} {uri root : Str} (cwd : List Str)
    (hopen : ∀ p w, Inside cwd root p → os.openFile p w = os'.openFile p w)
    (hstat : os.stat = os'.stat) (hclose : os.close = os'.close)
    (hredir : http.redirect = http'.redirect) (hserve : http.serveContent = http'.serveContent)
    (hdir : ∀ name w1 f w2 i, s.ctx.params b!"*0" = some name →
      os.openFile (dirPath root name) s.world = (w1, some f) → os.stat f w1 = (w2, some i) → i.dir = true →
      req.path.getLast? ≠ some slash ∧ pathClean req.path ≠ [slash]) :
    exec o req nx k (staticHandler (dirFS os root) http (staticOptions (dirFS os) uri root)) s =
      exec o req nx k (staticHandler (dirFS os' root) http' (staticOptions (dirFS os') uri root)) s := by
  have hfs : dirFS os root = dirFS os' root := by
    unfold dirFS
    rw [hstat, hclose]
    congr 1
    funext name w
    exact hopen _ w (C75_inside cwd root name)
  have hopt : ∀ (h : Http ω), staticHandler (dirFS os' root) h (staticOptions (dirFS os') uri root) =
      staticHandler (dirFS os' root) h (staticOptions (dirFS os) uri root) := by
    intro h
    have : staticOptions (dirFS os) uri root = staticOptions (dirFS os') uri root := by
      unfold staticOptions; rw [hfs]
    rw [this]
  rw [hopt, ← hfs]
  exact C49_configured_partial hredir hserve (fun name w1 f w2 i h1 h2 h3 h4 => hdir name w1 f w2 i h1 h2 h3 h4)

namespace Demo

/-- an operating system with the directories `/`, `/var/www` and `/var/www/d`, and two files; the world lists the paths that
were opened -/
def unixOS : FS (List Str) where
  openFile := fun p w => (w ++ [p], if p = b!"/" ∨ p = b!"/var/www" ∨ p = b!"/var/www/d" then some 0
    else if p = b!"/var/www/f.txt" ∨ p = b!"/etc/passwd" then some 1 else none)
  stat := fun f w => (w, if f = 0 then some ⟨true, 0, 0, b!"d"⟩ else some ⟨false, 1600000000000000000, 3, b!"f.txt"⟩)
  close := fun _ w => w

/-- net/http, where `http.ServeFile` answers with the path and the content `secret` if the path is outside of `/var/www` -/
def unixHttp (secret : Str) : Http (List Str) where
  redirect := fun url => .do (.setHeader b!"Location" url) (.do (.rawWriteHeader 302) .ret)
  serveFile := fun p => .do (.rawWrite (if walk [] b!"/var/www" <+: walk [] p then b!"inside" else p ++ secret)) .ret
  serveContent := fun name _ _ => .do (.rawWrite (b!"content of " ++ name)) .ret

/-- serve one request by a router with `Static("/static", "/var/www")`: status codes, body, paths opened -/
def unixAsk (secret : Str) (path : Str) : Option (List Int × Str × List Str) :=
  match runOps [] (.newRouter :: staticOps 0 (dirFS unixOS b!"/var/www") (unixHttp secret)
      (staticOptions (dirFS unixOS) b!"/static" b!"/var/www")) with
  | .error _ => none
  | .ok heap =>
    match handler rx heap 0 [] with
    | .error _ => none
    | .ok e =>
      let sv := serve rx chainO e .new (at' path) Writer.new none []
      some (sv.rw.log.filterMap (fun x => match x with | .status _ c _ => some c | _ => none),
        sv.rw.log.flatMap (fun x => match x with | .body d => d | _ => []), sv.world)

/-- going up stays inside; a relative root; the walk of a path -/
example : dirPath b!"/var/www" b!"../../etc/passwd" = b!"/var/www/etc/passwd" ∧
    dirPath b!"../www/" b!"a/./..//b" = b!"../www/b" ∧ dirPath [] b!"x" = b!"x" ∧ dirPath b!"/" [] = b!"/" ∧
    walk [b!"home", b!"me"] b!"../www/b" = [b!"home", b!"www", b!"b"] ∧
    unixAsk [] b!"/static/f.txt" = some ([200], b!"content of f.txt", [b!"/var/www/f.txt"]) ∧
    unixAsk [] b!"/static/../../etc/passwd" = some ([404], [], [b!"/var/www/etc/passwd"]) ∧
    unixAsk [] b!"/static/d" = some ([302], [], [b!"/var/www/d"]) := by decide +kernel

end Demo

open Demo in
/-- C75 as stated fails: the request `/static///` of a route made by `Static("/static", "/var/www")` is answered by
`http.ServeFile` with the root directory of the operating system, so that the answer depends on it. -/
theorem C75_refuted : ∃ a b : Str,
    (∀ p, Inside [] b!"/var/www" p → (unixHttp a).serveFile p = (unixHttp b).serveFile p) ∧
    (unixHttp a).redirect = (unixHttp b).redirect ∧ (unixHttp a).serveContent = (unixHttp b).serveContent ∧
    unixAsk a b!"/static///" = some ([200], b!"/" ++ a, [b!"/var/www"]) ∧
    unixAsk b b!"/static///" = some ([200], b!"/" ++ b, [b!"/var/www"]) ∧ a ≠ b := by
  refine ⟨b!"etc", b!"usr", ?_, rfl, rfl, by decide +kernel, by decide +kernel, by decide⟩
  intro p hp
  unfold unixHttp
  simp only [if_pos (show walk [] b!"/var/www" <+: walk [] p from hp)]

end Water
