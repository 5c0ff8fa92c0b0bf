import Verif.Lemmas.PrintTree
import Verif.Lemmas.Text
import Verif.Props.Router
import Verif.Lemmas.Serve
/-
C101: the routing tree drawn by PrintRouterTree.
-/
namespace Water
open Spec
variable {α : Type}

/-- C101: `PrintRouterTree` panics for an unsupported method. -/
theorem C101_unsupported (e : Engine α) {m : Str} (hm : ∀ M ∈ methodNames, ¬ ReadsCapital M m) : printRouterTree e m = none := by
  have cap : ∀ M ∈ methodNames, ∀ c ∈ M, capitalByte c := by decide +kernel
  unfold printRouterTree checkMethod
  rw [methodIndex_none.2 (fun hx => hm _ hx ((toUpper_iff (cap _ hx)).1 rfl))]
  rfl

/-- C101, partial: `PrintRouterTree` writes a line for `/`, if it is registered, then one line for each other row there is for the
registered routes of the method, in order, with the drawing that belongs to it, its last segment and the number of handlers that a
request gets. Missing: the drawing is that of a list which has the row of `/` in its place, though that row was written on top, so
that the row before it may have a branch where a corner is due (`C101_refuted`). -/
theorem C101_tree_partial {rx : Regex} {st : Bool} {nf : List α} {rs : List (Route α)} {e : Engine α}
    (h : mkEngine rx st nf rs = .ok e) {M : Str} (hM : M ∈ methodNames) {m : Str} (hm : ReadsCapital M m) :
    ∃ (rows : List Row) (out : List (Row × Str)) (top : List Str),
      (∀ x, x ∈ rows ↔ Shown (tableFor M rs) x) ∧ rows.Pairwise (RowBefore (tableFor M rs)) ∧
      out.map Prod.fst = rows.filter (· ≠ topRow) ∧ (∀ p ∈ out, RowLine (tableFor M rs) p.1 p.2) ∧
      (¬ Shown (tableFor M rs) topRow → top = []) ∧
      (∀ hs, FirstHandlers (tableFor M rs) [[]] hs → top = [b!"/ [" ++ number3 hs.length ++ b!"]"]) ∧
      printRouterTree e m = some (if tableFor M rs = [] then [b!"no route"] else top ++ out.map Prod.snd) := by
  have cap : ∀ M ∈ methodNames, ∀ c ∈ M, capitalByte c := by decide +kernel
  obtain rfl := (toUpper_iff (cap M hM)).2 hm
  obtain ⟨idx, hidx⟩ : ∃ idx, methodIndex (toUpper m) = some idx :=
    Option.ne_none_iff_exists'.1 (fun hx => methodIndex_none.1 hx hM)
  obtain ⟨hinv, _⟩ := mkEngine_inv h
  have hinv := hinv _ _ hidx
  unfold printRouterTree checkMethod
  rw [hidx]
  simp only [Option.map_some]
  cases ht : e.trees idx with
  | none =>
    rw [ht] at hinv
    simp only at hinv
    rw [hinv]
    refine ⟨[], [], [], ?_, .nil, rfl, by simp, fun _ => rfl, ?_, rfl⟩
    · intro x
      simp [Shown]
    · rintro hs ⟨l1, x, l2, hx, _⟩
      simp at hx
  | some t =>
    rw [ht] at hinv
    obtain ⟨hb, _⟩ := hinv
    have hne : tableFor (toUpper m) rs ≠ [] := by
      unfold mkEngine at h
      cases hc : checkRoutes rs with
      | error er => rw [hc] at h; simp [bind, Except.bind] at h
      | ok rs' =>
        rw [hc] at h; simp only [bind, Except.bind] at h
        obtain ⟨h1, h2⟩ := checkRoutes_ok hc
        rcases buildTree_nonempty h hidx (by rw [ht]; rfl) with h3 | ⟨v, hv, hvm⟩
        · cases h3
        · rw [← tableFor_variant, ← h1]
          exact List.ne_nil_of_mem (mem_tableFor.2 ⟨v, hv, hvm, rfl⟩)
    have hl := lines_node hb true (pre := []) .nil
    have hcounts : ∀ x ∈ (rowsN t).filter (keep true), Counts (tableFor (toUpper m) rs) x.1 x.2 :=
      fun x hx => (rows_sound hb (x := x.1) (k := x.2) (List.mem_filter.1 hx).1).2
    obtain ⟨out, h1, h2, h3⟩ := hl.pairs hcounts
    refine ⟨(rowsN t).map Prod.fst, out, (t.ends.filter (fun v => v.seg.pattern == [])).map
        (fun v => b!"/ [" ++ padLeft 3 (itoaNat v.handlers.length) ++ b!"]"), ?_, ?_, ?_, h3, ?_, ?_,
      by simp only [if_neg hne, h2]⟩
    · intro x
      constructor
      · intro hx
        obtain ⟨y, hy, rfl⟩ := List.mem_map.1 hx
        exact (rows_sound hb (x := y.1) (k := y.2) hy).1
      · intro hx
        obtain ⟨k, hk⟩ := rows_complete hb hx
        exact List.mem_map.2 ⟨_, hk, rfl⟩
    · rw [List.pairwise_map]; exact rows_sorted hb
    · rw [h1, List.filter_map]
      congr 1
      apply List.filter_congr
      intro x _
      by_cases hx : x.1 = topRow
      · simp [keep, hx]
      · rw [keep_deep hx]; simp [hx]
    · intro hns
      rw [List.map_eq_nil_iff, List.filter_eq_nil_iff]
      intro v hv hvp
      apply hns
      cases t with
      | mk seg subs ends =>
        cases hb with
        | mk _ endsOk =>
          have := firstHandlers_shown (endsOk v hv).2.1 (by simp)
          rw [show v.seg.pattern = [] by simpa using hvp] at this
          exact this
    · rintro hs hf
      cases t with
      | mk seg subs ends =>
        have hends := hb.ends_ne
        cases hb with
        | mk _ endsOk endsAll =>
          obtain ⟨l1, x, l2, hx0, hx1, _⟩ := id hf
          obtain ⟨v, hv, hvp⟩ := endsAll x (by rw [hx0]; simp) [] hx1
          have hv2 := (endsOk v hv).2.1
          rw [hvp] at hv2
          have hsingle : ends.filter (fun v => v.seg.pattern == []) = [v] := by
            obtain ⟨as, bs, rfl⟩ := List.append_of_mem hv
            obtain ⟨_, g2, g3⟩ := List.pairwise_append.1 hends
            have g2 := (List.pairwise_cons.1 g2).1
            rw [List.filter_append, List.filter_cons_of_pos (by simp [hvp])]
            have ha : as.filter (fun v => v.seg.pattern == []) = [] := by
              rw [List.filter_eq_nil_iff]
              intro w hw hwp
              exact g3 w hw v (by simp) (by rw [hvp]; simpa using hwp)
            have hb : bs.filter (fun v => v.seg.pattern == []) = [] := by
              rw [List.filter_eq_nil_iff]
              intro w hw hwp
              exact g2 w hw (by rw [hvp]; exact (by simpa using hwp : w.seg.pattern = []).symm)
            rw [ha, hb]; rfl
          show List.map _ (ends.filter (fun v => v.seg.pattern == [])) = _
          rw [hsingle, firstHandlers_unique hf hv2]
          rfl

/-- C101, partial, for an engine made from a router: the rows and numbers are those of the endpoints below the root, with their
chains. Missing: as in `C101_tree_partial`. -/
theorem C101_router_partial {rx : Regex} {ops : List (Op α)} {heap : Heap α} (h : runOps [] ops = .ok heap) {r : Nat}
    {opts : List (Opt α)} {e : Engine α} (he : handler rx heap r opts = .ok e) {M : Str} (hM : M ∈ methodNames) {m : Str}
    (hm : ReadsCapital M m) :
    ∃ es : List (Nat × List Nat), (∀ i l, (i, l) ∈ es ↔ Endpoint ops r i l) ∧ es.Pairwise (fun a b => Precedes a.2 b.2) ∧
      ∃ (rows : List Row) (out : List (Row × Str)) (top : List Str),
        (∀ x, x ∈ rows ↔ Shown (tableFor M (es.map (routeFor ops r))) x) ∧
        rows.Pairwise (RowBefore (tableFor M (es.map (routeFor ops r)))) ∧
        out.map Prod.fst = rows.filter (· ≠ topRow) ∧ (∀ p ∈ out, RowLine (tableFor M (es.map (routeFor ops r))) p.1 p.2) ∧
        (¬ Shown (tableFor M (es.map (routeFor ops r))) topRow → top = []) ∧
        (∀ hs, FirstHandlers (tableFor M (es.map (routeFor ops r))) [[]] hs → top = [b!"/ [" ++ number3 hs.length ++ b!"]"]) ∧
        printRouterTree e m =
          some (if tableFor M (es.map (routeFor ops r)) = [] then [b!"no route"] else top ++ out.map Prod.snd) := by
  obtain ⟨es, h1, _, h3, _, h5⟩ := C20_endpoints h he
  exact ⟨es, h1, h3, C101_tree_partial h5 hM hm⟩

/-- C101 does not hold: with `/` registered last, the last line is drawn as if another followed. -/
theorem C101_refuted : ∃ (ops : List (Op Nat)) (heap : Heap Nat) (e : Engine Nat),
    runOps [] ops = .ok heap ∧ handler Demo.rx heap 0 [] = .ok e ∧
    printRouterTree e b!"GET" = some [b!"/ [  1]", b!"├── a", b!"│   └── b [  1]"] := by
  refine ⟨[.newRouter, .handle 0 b!"GET" b!"/a/b" [.ctxFunc 2], .handle 0 b!"GET" b!"/" [.ctxFunc 1]], _, _, rfl, rfl, ?_⟩
  decide +kernel

namespace Demo

/-- the drawn tree of routes of all kinds, `/` among them, and of methods without routes -/
example : withEngine false [get b!"/<x>/b" [1], get b!"/a/<y ~ (b.)>" [2, 3], get b!"/" [3], get b!"/a/*r" [3], get b!"/*" [4],
      get b!"/a/b/c" [5], get b!"/a/b" [5, 6, 7]] (fun e =>
    printRouterTree e b!"Get" == some [b!"/ [  1]", b!"├── a", b!"│   ├── b", b!"│   │   └── c [  1]", b!"│   ├── b [  3]",
      b!"│   ├── <y ~ (b.)> [  2]", b!"│   └── *r [  1]", b!"├── <x>", b!"│   └── b [  1]", b!"└── * [  1]"] &&
    printRouterTree e b!"put" == some [b!"no route"] && printRouterTree e b!"foo" == none) = true := by
  decide +kernel

end Demo

end Water
