import Verif.Lemmas.Engine
import Verif.Spec.Bind
/- Helper lemmas: what the search writes into the parameter map. -/
namespace Water
open Spec
variable {α : Type}

/-- names written by regexp sub nodes below a node: these may be written by failed branches -/
inductive Leak : Node α → Str → Prop where
  | here {n s : Node α} {x : Str} : s ∈ n.subs → s.seg.typ = .regexp → x ∈ s.seg.wildcards → Leak n x
  | there {n s : Node α} {x : Str} : s ∈ n.subs → Leak s x → Leak n x

/-- no name of a regexp sub node is written again below it -/
inductive Clean : Node α → Prop where
  | mk {n : Node α} : (∀ s ∈ n.subs, s.seg.typ = .regexp → ∀ x ∈ s.seg.wildcards, ¬ Leak s x) →
      (∀ s ∈ n.subs, Clean s) → Clean n

theorem Clean.sub {n s : Node α} (h : Clean n) (hs : s ∈ n.subs) :
    (s.seg.typ = .regexp → ∀ x ∈ s.seg.wildcards, ¬ Leak s x) ∧ Clean s := by
  cases h with | mk h1 h2 => exact ⟨h1 s hs, h2 s hs⟩

/-- the sub nodes of a list -/
def LeakL (subs : List (Node α)) (x : Str) : Prop :=
  ∃ s ∈ subs, (s.seg.typ = .regexp ∧ x ∈ s.seg.wildcards) ∨ Leak s x

theorem leak_iff {seg : Seg} {subs : List (Node α)} {ends : List (EndNode α)} {x : Str} :
    Leak (.mk seg subs ends) x ↔ LeakL subs x := by
  constructor
  · intro h
    cases h with
    | here h1 h2 h3 => exact ⟨_, h1, .inl ⟨h2, h3⟩⟩
    | there h1 h2 => exact ⟨_, h1, .inr h2⟩
  · rintro ⟨s, h1, ⟨h2, h3⟩ | h2⟩
    · exact .here h1 h2 h3
    · exact .there h1 h2

@[simp] theorem Map.set_same {κ ν : Type} [DecidableEq κ] (m : Map κ ν) (k : κ) (v : ν) : m.set k v k = some v := by
  simp [Map.set]

theorem Map.set_other {κ ν : Type} [DecidableEq κ] (m : Map κ ν) {k x : κ} (v : ν) (h : x ≠ k) : m.set k v x = m x := by
  simp [Map.set, h]

theorem setAll_other {ps : Params} {ws rs : List Str} {x : Str} (h : x ∉ ws) : setAll ps ws rs x = ps x := by
  induction ws generalizing ps rs with
  | nil => simp [setAll]
  | cons w ws ih =>
    cases rs with
    | nil => simp [setAll]
    | cons r rs =>
      simp only [setAll]
      rw [ih (fun h' => h (by simp [h'])), Map.set_other _ _ (fun h' => h (by simp [h']))]

theorem setAll_zip {ps : Params} {ws rs : List Str} {x v : Str} (hn : ((ws.zip rs).map Prod.fst).Nodup)
    (h : (x, v) ∈ ws.zip rs) (hl : ws.length ≤ rs.length) : setAll ps ws rs x = some v := by
  induction ws generalizing ps rs with
  | nil => simp at h
  | cons w ws ih =>
    cases rs with
    | nil => simp at h
    | cons r rs =>
      simp only [List.zip_cons_cons, List.map_cons, List.nodup_cons] at hn
      simp only [setAll]
      simp at hl
      rcases List.mem_cons.1 h with h | h
      · injection h with h1 h2
        subst h1; subst h2
        rw [setAll_other, Map.set_same]
        intro hx
        apply hn.1
        rw [List.map_fst_zip hl]
        exact hx
      · exact ih hn.2 h hl

/-- the segment data are those of its pattern -/
def SegOk (rx : Regex) (seg : Seg) : Prop := analyzePattern rx seg.pattern = .ok seg

/-- all segments of a tree are analysed patterns -/
inductive TreeOk (rx : Regex) : Node α → Prop where
  | mk {n : Node α} : (∀ e ∈ n.ends, SegOk rx e.seg) → (∀ s ∈ n.subs, SegOk rx s.seg) →
      (∀ s ∈ n.subs, TreeOk rx s) → TreeOk rx n

theorem Built.treeOk {rx : Regex} {tbl : List (Entry α)} {n : Node α} (h : Built rx tbl n) : TreeOk rx n := by
  induction h with
  | @mk tbl seg subs ends endsOrd endsOk endsAll subsOrd subsOk subsAll subsBuilt ih =>
    exact .mk (fun e he => (endsOk e he).1) (fun s hs => (subsOk s hs).1) ih

theorem TreeOk.sub {rx : Regex} {n s : Node α} (h : TreeOk rx n) (hs : s ∈ n.subs) : SegOk rx s.seg ∧ TreeOk rx s := by
  cases h with | mk h1 h2 h3 => exact ⟨h2 s hs, h3 s hs⟩

theorem TreeOk.tl {rx : Regex} {n : Node α} {seg : Seg} {ns : List (Node α)} {ends : List (EndNode α)}
    (h : TreeOk rx (.mk seg (n :: ns) ends)) : TreeOk rx (.mk seg ns ends) := by
  cases h with
  | mk h1 h2 h3 =>
    exact .mk h1 (fun s hs => h2 s (by simp only [Node.subs] at hs ⊢; simp [hs]))
      (fun s hs => h3 s (by simp only [Node.subs] at hs ⊢; simp [hs]))

theorem Clean.tl {n : Node α} {seg : Seg} {ns : List (Node α)} {ends : List (EndNode α)}
    (h : Clean (.mk seg (n :: ns) ends)) : Clean (.mk seg ns ends) := by
  cases h with
  | mk h1 h2 =>
    exact .mk (fun s hs => h1 s (by simp only [Node.subs] at hs ⊢; simp [hs]))
      (fun s hs => h2 s (by simp only [Node.subs] at hs ⊢; simp [hs]))

mutual
/-- a failed search only touches names of regexp sub nodes -/
theorem matchNext_none (rx : Regex) (n : Node α) (g : Nat) (uri : Str) (ps ps' : Params)
    (h : matchNext rx n g uri ps = (ps', none)) (x : Str) (hx : ¬ Leak n x) : ps' x = ps x := by
  cases n with
  | mk seg subs ends =>
    unfold matchNext at h
    cases hi : indexByte uri slash with
    | none =>
      rw [hi] at h
      simp only [] at h
      clear hx
      induction ends with
      | nil => simp [matchEnds] at h; rw [h]
      | cons e es ih =>
        unfold matchEnds at h
        split at h
        · split at h
          · simp at h
          · exact ih h
        · simp only [] at h
          split at h
          · exact ih h
          · simp at h
        · simp at h
        · simp at h
    | some i =>
      rw [hi] at h
      simp only [] at h
      exact matchSubs_none rx subs ends g _ _ ps ps' h x (fun hl => hx (leak_iff.2 hl))
theorem matchSubs_none (rx : Regex) (subs : List (Node α)) (ends : List (EndNode α)) (g : Nat) (s uri : Str)
    (ps ps' : Params) (h : matchSubs rx subs ends g s uri ps = (ps', none)) (x : Str) (hx : ¬ LeakL subs x) :
    ps' x = ps x := by
  cases subs with
  | nil =>
    unfold matchSubs matchFallback at h
    split at h
    · split at h
      · simp at h
      · simp at h; rw [h]
    · simp at h; rw [h]
  | cons n ns =>
    have hx1 : ¬ LeakL ns x := fun ⟨s, hs, h⟩ => hx ⟨s, by simp [hs], h⟩
    have hx2 : ¬ Leak n x := fun h => hx ⟨n, by simp, .inr h⟩
    have hx3 : n.seg.typ = .regexp → x ∉ n.seg.wildcards := fun h1 h2 => hx ⟨n, by simp, .inl ⟨h1, h2⟩⟩
    unfold matchSubs at h
    split at h
    · split at h
      · split at h
        · simp at h
        · rename_i ps1 hm
          rw [matchSubs_none rx ns ends g s uri _ ps' h x hx1, matchNext_none rx n g uri ps _ hm x hx2]
      · exact matchSubs_none rx ns ends g s uri ps ps' h x hx1
    · rename_i ht
      simp only [] at h
      split at h
      · exact matchSubs_none rx ns ends g s uri ps ps' h x hx1
      · split at h
        · simp at h
        · rename_i ps1 hm
          rw [matchSubs_none rx ns ends g s uri _ ps' h x hx1, matchNext_none rx n g uri _ _ hm x hx2,
            setAll_other (hx3 ht)]
    · split at h
      · simp at h
      · rename_i ps1 hm
        rw [matchSubs_none rx ns ends g s uri _ ps' h x hx1, matchNext_none rx n g uri ps _ hm x hx2]
    · split at h
      · simp at h
      · rename_i ps1 hm
        rw [matchSubs_none rx ns ends g s uri _ ps' h x hx1, matchNext_none rx n (g + 1) uri ps _ hm x hx2]
end

theorem bindSeg_names {rx : Regex} {g : Nat} {p s rest av x v : Str} (h : (x, v) ∈ bindSeg rx g p s rest av) :
    x ∈ declaredSeg g p := by
  unfold bindSeg at h
  unfold declaredSeg
  cases hk : kind p with
  | literal => simp [hk] at h
  | regexp =>
    simp only [hk] at h ⊢
    exact (List.of_mem_zip h).1
  | name =>
    simp only [hk] at h ⊢
    split at h
    · simp at h
    · rename_i hn; rw [if_neg hn]; simp at h ⊢; exact h.1
  | star =>
    simp only [hk] at h ⊢
    split at h
    · rename_i hn; rw [if_pos hn]; simp at h ⊢; exact h.1
    · rename_i hn; rw [if_neg hn]
      split at h
      · simp at h
      · rename_i hn; rw [if_neg hn]; simp at h ⊢; exact h.1

theorem bindings_names {rx : Regex} {g : Nat} {r ss : List Str} {x v : Str} (h : (x, v) ∈ bindings rx g r ss) :
    x ∈ declared g r := by
  match r, ss with
  | [], _ => simp [bindings] at h
  | [p], [] => simp [bindings] at h
  | [p], s :: ss =>
    simp only [bindings] at h
    simp only [declared, List.append_nil]
    exact bindSeg_names h
  | p :: q :: r, [] => simp [bindings] at h
  | p :: q :: r, s :: ss =>
    simp only [bindings, List.mem_append] at h
    unfold declared
    rw [List.mem_append]
    rcases h with h | h
    · exact .inl (bindSeg_names h)
    · exact .inr (bindings_names h)

/-- what one end node writes -/
theorem endWrite {rx : Regex} {g : Nat} {seg : Seg} (hok : SegOk rx seg) {s rest : Str} {ps ps' : Params}
    (hs : segAcc rx seg s = true)
    (hw : ps' = match seg.typ with
      | .static => ps
      | .regexp => setAll ps seg.wildcards ((rx.find seg.reg s).drop 1)
      | .holder => if seg.parsed ≠ [95] then ps.set seg.parsed s else ps
      | .matchAll => setGlob seg g rest ps) :
    (∀ x, x ∉ (bindSeg rx g seg.pattern s rest rest).map Prod.fst → ps' x = ps x) ∧
    (∀ x v, ((bindSeg rx g seg.pattern s rest rest).map Prod.fst).Nodup →
      (x, v) ∈ bindSeg rx g seg.pattern s rest rest → ps' x = some v) := by
  obtain ⟨_, _, h3, h4, h5, h6⟩ := analyze_spec hok
  unfold segAcc at hs
  unfold bindSeg
  rw [← h3]
  cases ht : seg.typ with
  | static =>
    rw [ht] at hw
    simp only [PTyp.kind]
    refine ⟨fun x _ => by rw [hw], fun x v _ hx => ?_⟩
    simp at hx
  | regexp =>
    rw [ht] at hw hs
    obtain ⟨h7, h8⟩ := h4 ht
    simp only [PTyp.kind]
    rw [h7, h8] at hs hw
    refine ⟨fun x hx => ?_, fun x v hn hx => ?_⟩
    · rw [hw]
      apply setAll_other
      rwa [List.map_fst_zip (by simp at hs ⊢; omega)] at hx
    · rw [hw]
      apply setAll_zip hn hx
      simp at hs ⊢; omega
  | holder =>
    rw [ht] at hw
    simp only [PTyp.kind]
    rw [h5 ht] at hw
    unfold underscore
    by_cases hu : nameText seg.pattern = [95]
    · simp [hu] at hw ⊢; intro x; rw [hw]
    · simp [hu] at hw ⊢
      rw [hw]
      exact ⟨fun x hx => Map.set_other _ _ hx, Map.set_same _ _ _⟩
  | matchAll =>
    rw [ht] at hw
    simp only [PTyp.kind]
    unfold setGlob globKey at hw
    rw [h6 ht] at hw
    unfold underscore anonKey
    by_cases he : starName seg.pattern = []
    · simp [he] at hw ⊢
      rw [hw]
      exact ⟨fun x hx => Map.set_other _ _ hx, Map.set_same _ _ _⟩
    · by_cases hu : starName seg.pattern = [95]
      · simp [hu] at hw ⊢; intro x; rw [hw]
      · simp [he, hu] at hw ⊢
        rw [hw]
        exact ⟨fun x hx => Map.set_other _ _ hx, Map.set_same _ _ _⟩

theorem matchEnds_some {rx : Regex} {g : Nat} {uri : Str} {ends : List (EndNode α)} {ps ps' : Params} {e : EndNode α}
    (hok : ∀ e ∈ ends, SegOk rx e.seg)
    (h : matchEnds rx g uri ends ps = (ps', some e)) :
    (∀ x, x ∉ (bindSeg rx g e.seg.pattern uri uri uri).map Prod.fst → ps' x = ps x) ∧
    (∀ x v, ((bindSeg rx g e.seg.pattern uri uri uri).map Prod.fst).Nodup →
      (x, v) ∈ bindSeg rx g e.seg.pattern uri uri uri → ps' x = some v) := by
  induction ends with
  | nil => simp [matchEnds] at h
  | cons e0 es ih =>
    have ih := ih (fun e he => hok e (by simp [he]))
    have hok0 := hok e0 (by simp)
    unfold matchEnds at h
    cases ht : e0.seg.typ with
    | static =>
      rw [ht] at h
      simp only [] at h
      split at h
      · rename_i hp
        simp at h
        obtain ⟨h1, rfl⟩ := h
        exact endWrite hok0 (by unfold segAcc; rw [ht]; simpa using hp) (by rw [ht]; exact h1.symm)
      · exact ih h
    | regexp =>
      rw [ht] at h
      simp only [] at h
      split at h
      · exact ih h
      · rename_i hp
        simp only [Prod.mk.injEq, Option.some.injEq] at h
        obtain ⟨h1, rfl⟩ := h
        exact endWrite hok0 (by unfold segAcc; rw [ht]; simpa using hp) (by rw [ht]; exact h1.symm)
    | holder =>
      rw [ht] at h
      simp only [Prod.mk.injEq, Option.some.injEq] at h
      obtain ⟨h1, rfl⟩ := h
      exact endWrite hok0 (by unfold segAcc; rw [ht]) (by rw [ht]; exact h1.symm)
    | matchAll =>
      rw [ht] at h
      simp only [Prod.mk.injEq, Option.some.injEq] at h
      obtain ⟨h1, rfl⟩ := h
      exact endWrite hok0 (by unfold segAcc; rw [ht]) (by rw [ht]; exact h1.symm)

/-- What a successful search writes: `r` selected on `ss`. -/
def Writes (rx : Regex) (g : Nat) (r ss : List Str) (leak : Str → Prop) (clean : Prop) (ps ps' : Params) : Prop :=
  (∀ x, x ∉ (bindings rx g r ss).map Prod.fst → ¬ leak x → ps' x = ps x) ∧
  (((bindings rx g r ss).map Prod.fst).Nodup → ∀ x v, (x, v) ∈ bindings rx g r ss →
    (InnerRegexName r x → clean) → ps' x = some v)

theorem inner_cons {p : Str} {r : List Str} {x : Str} (h : InnerRegexName r x) : InnerRegexName (p :: r) x := by
  obtain ⟨c, a, q, rest, rfl, h2⟩ := h
  exact ⟨p :: c, a, q, rest, rfl, h2⟩

theorem inner_head {p q : Str} {r : List Str} {x : Str} (hk : kind p = .regexp) (hx : x ∈ regexNames p) :
    InnerRegexName (p :: q :: r) x := ⟨[], p, q, r, rfl, hk, hx⟩

/-- extending by a failed search in front -/
theorem Writes.after {rx : Regex} {g : Nat} {r ss : List Str} {leak leak' : Str → Prop} {clean clean' : Prop}
    {ps ps1 ps' : Params} (h : Writes rx g r ss leak clean ps1 ps') (h1 : ∀ x, ¬ leak' x → ps1 x = ps x)
    (h2 : ∀ x, leak x → leak' x) (h3 : clean' → clean) : Writes rx g r ss leak' clean' ps ps' := by
  refine ⟨fun x hx hl => ?_, fun hn x v hx hc => h.2 hn x v hx (fun hi => h3 (hc hi))⟩
  rw [h.1 x hx (fun hl' => hl (h2 x hl')), h1 x hl]

mutual
theorem matchNext_some (rx : Regex) (n : Node α) (g : Nat) (uri : Str) (ps ps' : Params) (e : EndNode α)
    (hok : TreeOk rx n) (h : matchNext rx n g uri ps = (ps', some e)) (r : List Str)
    (hs : sel rx n (splitB slash uri) = some (r, e)) :
    Writes rx g r (splitB slash uri) (Leak n) (Clean n) ps ps' := by
  cases n with
  | mk seg subs ends =>
    unfold matchNext at h
    cases hi : indexByte uri slash with
    | none =>
      rw [hi] at h
      simp only [] at h
      rw [splitB_index_none hi] at hs ⊢
      simp only [sel, Option.map_eq_some_iff, Prod.mk.injEq] at hs
      obtain ⟨e', _, rfl, rfl⟩ := hs
      have hw := matchEnds_some (by cases hok with | mk h1 _ _ => exact h1) h
      refine ⟨fun x hx _ => hw.1 x (by simpa only [bindings, join] using hx), fun hn x v hx _ => ?_⟩
      simp only [bindings, join] at hn hx
      exact hw.2 x v hn hx
    | some i =>
      rw [hi] at h
      simp only [] at h
      rw [splitB_index_some hi] at hs ⊢
      obtain ⟨t, ss, hts⟩ : ∃ t ss, splitB slash (uri.drop (i + 1)) = t :: ss := by
        cases hsp : splitB slash (uri.drop (i + 1)) with
        | nil => exact absurd hsp (splitB_ne_nil _ _)
        | cons t ss => exact ⟨t, ss, rfl⟩
      have hs' : (selSubs rx subs (uri.take i) (splitB slash (uri.drop (i + 1)))).or (lastStar ends) = some (r, e) := by
        rw [hts] at hs ⊢; exact hs
      have := matchSubs_some rx subs ends g (uri.take i) (uri.drop (i + 1)) ps ps' e seg hok h r hs'
      exact this.after (fun _ _ => rfl) (fun x hx => leak_iff.2 hx) id
theorem matchSubs_some (rx : Regex) (subs : List (Node α)) (ends : List (EndNode α)) (g : Nat) (s uri : Str)
    (ps ps' : Params) (e : EndNode α) (seg : Seg) (hok : TreeOk rx (.mk seg subs ends))
    (h : matchSubs rx subs ends g s uri ps = (ps', some e)) (r : List Str)
    (hs : (selSubs rx subs s (splitB slash uri)).or (lastStar ends) = some (r, e)) :
    Writes rx g r (s :: splitB slash uri) (LeakL subs) (Clean (.mk seg subs ends)) ps ps' := by
  cases subs with
  | nil =>
    unfold matchSubs matchFallback at h
    simp only [selSubs, Option.none_or] at hs
    obtain ⟨as, rfl, rfl, ht⟩ := lastStar_some hs
    simp only [List.getLast?_append, List.getLast?_singleton, Option.some_or, ht, if_true, Prod.mk.injEq,
      and_true] at h
    have hseg : SegOk rx e.seg := by cases hok with | mk h1 _ _ => exact h1 e (by simp [Node.ends])
    have hj : s ++ [slash] ++ uri = join [slash] (s :: splitB slash uri) := by
      rw [join_cons_ne (splitB_ne_nil _ _), join_splitB]
    have hw := endWrite (g := g) (rest := s ++ [slash] ++ uri) (ps := ps) (ps' := ps') hseg (s := s)
      (by unfold segAcc; rw [ht]) (by rw [ht]; exact h.symm)
    refine ⟨fun x hx _ => hw.1 x (by simpa only [bindings, ← hj] using hx), fun hn x v hx _ => ?_⟩
    simp only [bindings, ← hj] at hn hx
    exact hw.2 x v hn hx
  | cons n ns =>
    have hokn : SegOk rx n.seg ∧ TreeOk rx n := hok.sub (by simp [Node.subs])
    obtain ⟨_, _, hk, hk4, hk5, hk6⟩ := analyze_spec hokn.1
    have hmono : ∀ x, LeakL ns x → LeakL (n :: ns) x := fun x ⟨s, hs, h⟩ => ⟨s, by simp [hs], h⟩
    have hleak : ∀ x, Leak n x → LeakL (n :: ns) x := fun x h => ⟨n, by simp, .inr h⟩
    have hj : s ++ [slash] ++ uri = join [slash] (s :: splitB slash uri) := by
      rw [join_cons_ne (splitB_ne_nil _ _), join_splitB]
    have hcln : Clean (.mk seg (n :: ns) ends) → (n.seg.typ = .regexp → ∀ x ∈ n.seg.wildcards, ¬ Leak n x) ∧ Clean n :=
      fun hc => hc.sub (by simp [Node.subs])
    unfold matchSubs at h
    unfold selSubs at hs
    -- the remaining list, after a failure (or skip) of `n`
    have hrest : ∀ ps1 : Params, (∀ x, ¬ LeakL (n :: ns) x → ps1 x = ps x) →
        matchSubs rx ns ends g s uri ps1 = (ps', some e) →
        (selSubs rx ns s (splitB slash uri)).or (lastStar ends) = some (r, e) →
        Writes rx g r (s :: splitB slash uri) (LeakL (n :: ns)) (Clean (.mk seg (n :: ns) ends)) ps ps' := by
      intro ps1 h1 h2 h3
      exact (matchSubs_some rx ns ends g s uri ps1 ps' e seg hok.tl h2 r h3).after h1 hmono Clean.tl
    -- success below `n`
    have hsub : ∀ (g' : Nat) (ps0 ps1 : Params) (r0 : List Str), r = n.seg.pattern :: r0 →
        sel rx n (splitB slash uri) = some (r0, e) →
        matchNext rx n g' uri ps0 = (ps1, some e) →
        Writes rx g' r0 (splitB slash uri) (Leak n) (Clean n) ps0 ps1 := by
      intro g' ps0 ps1 r0 _ h2 h3
      exact matchNext_some rx n g' uri ps0 ps1 e hokn.2 h3 r0 h2
    have hr0 : ∀ r0, sel rx n (splitB slash uri) = some (r0, e) → ∃ q rs, r0 = q :: rs := by
      intro r0 h0
      cases n with
      | mk sg sb en =>
        cases hsp : splitB slash uri with
        | nil => exact absurd hsp (splitB_ne_nil _ _)
        | cons t ss =>
          rw [hsp] at h0
          cases ss with
          | nil =>
            simp only [sel, Option.map_eq_some_iff, Prod.mk.injEq] at h0
            obtain ⟨_, _, h1, _⟩ := h0
            exact ⟨_, _, h1.symm⟩
          | cons t2 ss =>
            simp only [sel, Option.or_eq_some_iff] at h0
            rcases h0 with h0 | ⟨_, h0⟩
            · obtain ⟨_, m, _, r1, _, _, _, h1, _⟩ := selSubs_some h0
              exact ⟨_, _, h1⟩
            · obtain ⟨_, _, h1, _⟩ := lastStar_some h0
              exact ⟨_, _, h1⟩
    cases ht : n.seg.typ with
    | static =>
      rw [ht] at h hk
      have hkind : kind n.seg.pattern = .literal := hk.symm
      simp only [] at h
      by_cases hp : n.seg.pattern = s
      · rw [if_pos hp] at h
        rw [if_pos (by unfold segAcc; rw [ht]; simpa using hp)] at hs
        have hsnd := matchNext_snd rx n g uri ps
        rcases hm : matchNext rx n g uri ps with ⟨ps1, _ | e1⟩
        · rw [hm] at h hsnd
          rcases hsel : sel rx n (splitB slash uri) with _ | ⟨r0, e0⟩
          · rw [hsel] at hs
            exact hrest ps1 (fun x hx => matchNext_none rx n g uri ps ps1 hm x (fun hl => hx (hleak x hl))) h hs
          · rw [hsel] at hsnd; simp at hsnd
        · rw [hm] at h hsnd
          simp at h
          obtain ⟨rfl, rfl⟩ := h
          rcases hsel : sel rx n (splitB slash uri) with _ | ⟨r0, e0⟩
          · rw [hsel] at hsnd; simp at hsnd
          · rw [hsel] at hs
            simp at hs
            obtain ⟨rfl, rfl⟩ := hs
            obtain ⟨q, rs, rfl⟩ := hr0 _ hsel
            have hw := hsub g ps ps1 _ rfl hsel hm
            refine ⟨fun x hx hl => ?_, fun hn x v hx hc => ?_⟩
            · refine hw.1 x ?_ (fun hl' => hl (hleak x hl'))
              simpa only [bindings, bindSeg, hkind, List.nil_append, reduceCtorEq, if_false] using hx
            · simp only [bindings, bindSeg, hkind, List.nil_append, reduceCtorEq, if_false] at hn hx
              exact hw.2 hn x v hx (fun hi => (hcln (hc (inner_cons hi))).2)
      · rw [if_neg hp] at h
        rw [if_neg (by unfold segAcc; rw [ht]; simpa using hp)] at hs
        exact hrest ps (fun _ _ => rfl) h hs
    | regexp =>
      rw [ht] at h hk
      have hkind : kind n.seg.pattern = .regexp := hk.symm
      obtain ⟨h7, h8⟩ := hk4 ht
      simp only [] at h
      by_cases hp : ((rx.find n.seg.reg s).length : Int) - 1 = n.seg.wildcards.length
      · rw [if_neg (by simpa using hp)] at h
        rw [if_pos (by unfold segAcc; rw [ht]; simpa using hp)] at hs
        generalize hps0 : setAll ps n.seg.wildcards ((rx.find n.seg.reg s).drop 1) = ps0 at h
        have hlen : (regexNames n.seg.pattern).length ≤ ((rx.find (regexText n.seg.pattern) s).drop 1).length := by
          rw [h7, h8] at hp; simp; omega
        have hps0x : ∀ x, x ∉ n.seg.wildcards → ps0 x = ps x := fun x hx => by rw [← hps0]; exact setAll_other hx
        have hsnd := matchNext_snd rx n g uri ps0
        rcases hm : matchNext rx n g uri ps0 with ⟨ps1, _ | e1⟩
        · rw [hm] at h hsnd
          rcases hsel : sel rx n (splitB slash uri) with _ | ⟨r0, e0⟩
          · rw [hsel] at hs
            refine hrest ps1 (fun x hx => ?_) h hs
            rw [matchNext_none rx n g uri ps0 ps1 hm x (fun hl => hx (hleak x hl))]
            exact hps0x x (fun hw => hx ⟨n, by simp, .inl ⟨ht, hw⟩⟩)
          · rw [hsel] at hsnd; simp at hsnd
        · rw [hm] at h hsnd
          simp at h
          obtain ⟨rfl, rfl⟩ := h
          rcases hsel : sel rx n (splitB slash uri) with _ | ⟨r0, e0⟩
          · rw [hsel] at hsnd; simp at hsnd
          · rw [hsel] at hs
            simp at hs
            obtain ⟨rfl, rfl⟩ := hs
            obtain ⟨q, rs, rfl⟩ := hr0 _ hsel
            have hw := hsub g ps0 ps1 _ rfl hsel hm
            refine ⟨fun x hx hl => ?_, fun hn x v hx hc => ?_⟩
            · simp only [bindings, bindSeg, hkind, reduceCtorEq, if_false, List.map_append, List.mem_append,
                not_or] at hx
              rw [hw.1 x hx.2 (fun hl' => hl (hleak x hl'))]
              apply hps0x x
              rw [List.map_fst_zip hlen] at hx
              rw [h8]; exact hx.1
            · simp only [bindings, bindSeg, hkind, reduceCtorEq, if_false] at hn hx
              rw [List.map_append, List.nodup_append] at hn
              rcases List.mem_append.1 hx with hx | hx
              · have hxw : x ∈ n.seg.wildcards := by rw [h8]; exact (List.of_mem_zip hx).1
                have hnl : ¬ Leak n x := (hcln (hc (inner_head hkind (by rw [← h8]; exact hxw)))).1 ht x hxw
                have hxr : x ∉ (bindings rx g (q :: rs) (splitB slash uri)).map Prod.fst := by
                  intro hm
                  exact hn.2.2 x (List.mem_map_of_mem (f := Prod.fst) hx) x hm rfl
                rw [hw.1 x hxr hnl, ← hps0, h7, h8]
                exact setAll_zip hn.1 hx hlen
              · exact hw.2 hn.2.1 x v hx (fun hi => (hcln (hc (inner_cons hi))).2)
      · rw [if_pos (by simpa using hp)] at h
        rw [if_neg (by unfold segAcc; rw [ht]; simpa using hp)] at hs
        exact hrest ps (fun _ _ => rfl) h hs
    | holder =>
      rw [ht] at h hk
      have hkind : kind n.seg.pattern = .name := hk.symm
      have hpar := hk5 ht
      rw [if_pos (by unfold segAcc; rw [ht])] at hs
      simp only [] at h
      have hsnd := matchNext_snd rx n g uri ps
      rcases hm : matchNext rx n g uri ps with ⟨ps1, _ | e1⟩
      · rw [hm] at h hsnd
        rcases hsel : sel rx n (splitB slash uri) with _ | ⟨r0, e0⟩
        · rw [hsel] at hs
          exact hrest ps1 (fun x hx => matchNext_none rx n g uri ps ps1 hm x (fun hl => hx (hleak x hl))) h hs
        · rw [hsel] at hsnd; simp at hsnd
      · rw [hm] at h hsnd
        simp only [Prod.mk.injEq, Option.some.injEq] at h
        obtain ⟨hps, rfl⟩ := h
        rcases hsel : sel rx n (splitB slash uri) with _ | ⟨r0, e0⟩
        · rw [hsel] at hsnd; simp at hsnd
        · rw [hsel] at hs
          simp at hs
          obtain ⟨rfl, rfl⟩ := hs
          obtain ⟨q, rs, rfl⟩ := hr0 _ hsel
          have hw := hsub g ps ps1 _ rfl hsel hm
          rw [hpar] at hps
          by_cases hu : nameText n.seg.pattern = underscore
          · have hu' : nameText n.seg.pattern = [95] := hu
            simp only [hu', ne_eq, not_true_eq_false, if_false] at hps
            subst hps
            refine ⟨fun x hx hl => ?_, fun hn x v hx hc => ?_⟩
            · refine hw.1 x ?_ (fun hl' => hl (hleak x hl'))
              simpa only [bindings, bindSeg, hkind, hu, if_true, List.nil_append, reduceCtorEq, if_false] using hx
            · simp only [bindings, bindSeg, hkind, hu, if_true, List.nil_append, reduceCtorEq, if_false] at hn hx
              exact hw.2 hn x v hx (fun hi => (hcln (hc (inner_cons hi))).2)
          · have hu' : nameText n.seg.pattern ≠ [95] := hu
            simp only [hu', ne_eq, not_false_eq_true, if_true] at hps
            refine ⟨fun x hx hl => ?_, fun hn x v hx hc => ?_⟩
            · simp only [bindings, bindSeg, hkind, hu, if_false, reduceCtorEq, List.cons_append, List.nil_append,
                List.map_cons, List.mem_cons, not_or] at hx
              rw [← hps, Map.set_other _ _ hx.1]
              exact hw.1 x hx.2 (fun hl' => hl (hleak x hl'))
            · simp only [bindings, bindSeg, hkind, hu, if_false, reduceCtorEq, List.cons_append, List.nil_append,
                List.map_cons, List.nodup_cons] at hn hx
              rcases List.mem_cons.1 hx with hx | hx
              · injection hx with h1 h2
                rw [← hps, h1, h2]; simp
              · have hne : x ≠ nameText n.seg.pattern := by
                  intro he; apply hn.1; rw [← he]; exact List.mem_map_of_mem (f := Prod.fst) hx
                rw [← hps, Map.set_other _ _ hne]
                exact hw.2 hn.2 x v hx (fun hi => (hcln (hc (inner_cons hi))).2)
    | matchAll =>
      rw [ht] at h hk
      have hkind : kind n.seg.pattern = .star := hk.symm
      have hpar := hk6 ht
      rw [if_pos (by unfold segAcc; rw [ht])] at hs
      simp only [] at h
      have hsnd := matchNext_snd rx n (g + 1) uri ps
      rcases hm : matchNext rx n (g + 1) uri ps with ⟨ps1, _ | e1⟩
      · rw [hm] at h hsnd
        rcases hsel : sel rx n (splitB slash uri) with _ | ⟨r0, e0⟩
        · rw [hsel] at hs
          exact hrest ps1 (fun x hx => matchNext_none rx n (g + 1) uri ps ps1 hm x (fun hl => hx (hleak x hl))) h hs
        · rw [hsel] at hsnd; simp at hsnd
      · rw [hm] at h hsnd
        simp only [Prod.mk.injEq, Option.some.injEq] at h
        obtain ⟨hps, rfl⟩ := h
        rcases hsel : sel rx n (splitB slash uri) with _ | ⟨r0, e0⟩
        · rw [hsel] at hsnd; simp at hsnd
        · rw [hsel] at hs
          simp at hs
          obtain ⟨rfl, rfl⟩ := hs
          obtain ⟨q, rs, rfl⟩ := hr0 _ hsel
          have hw := hsub (g + 1) ps ps1 _ rfl hsel hm
          rw [hpar] at hps
          -- one write of key `k` to `v0`, or none
          have main : ∀ k v0 : Str, bindSeg rx g n.seg.pattern s (join [slash] (s :: splitB slash uri)) s = [(k, v0)] →
              ps1.set k v0 = ps' →
              Writes rx g (n.seg.pattern :: q :: rs) (s :: splitB slash uri) (LeakL (n :: ns))
                (Clean (.mk seg (n :: ns) ends)) ps ps' := by
            intro k v0 hb hset
            refine ⟨fun x hx hl => ?_, fun hn x v hx hc => ?_⟩
            · simp only [bindings, hb, hkind, if_true, List.cons_append, List.nil_append,
                List.map_cons, List.mem_cons, not_or] at hx
              rw [← hset, Map.set_other _ _ hx.1]
              exact hw.1 x hx.2 (fun hl' => hl (hleak x hl'))
            · simp only [bindings, hb, hkind, if_true, List.cons_append, List.nil_append,
                List.map_cons, List.nodup_cons] at hn hx
              rcases List.mem_cons.1 hx with hx | hx
              · injection hx with h1 h2
                rw [← hset, h1, h2]; simp
              · have hne : x ≠ k := by
                  intro he; apply hn.1; rw [← he]; exact List.mem_map_of_mem (f := Prod.fst) hx
                rw [← hset, Map.set_other _ _ hne]
                exact hw.2 hn.2 x v hx (fun hi => (hcln (hc (inner_cons hi))).2)
          by_cases he : starName n.seg.pattern = []
          · simp only [he, ne_eq, not_true_eq_false, if_false] at hps
            exact main (anonKey g) s (by simp only [bindSeg, hkind, he, if_true]) hps
          · by_cases hu : starName n.seg.pattern = underscore
            · have hu' : starName n.seg.pattern = [95] := hu
              simp only [hu', ne_eq, reduceCtorEq, not_true_eq_false, not_false_eq_true, if_false, if_true] at hps
              subst hps
              refine ⟨fun x hx hl => ?_, fun hn x v hx hc => ?_⟩
              · refine hw.1 x ?_ (fun hl' => hl (hleak x hl'))
                simpa only [bindings, bindSeg, hkind, hu, show ¬ underscore = [] by decide, if_true, List.nil_append,
                  if_false] using hx
              · simp only [bindings, bindSeg, hkind, hu, show ¬ underscore = [] by decide, if_true, List.nil_append,
                  if_false] at hn hx
                exact hw.2 hn x v hx (fun hi => (hcln (hc (inner_cons hi))).2)
            · have hu' : starName n.seg.pattern ≠ [95] := hu
              simp only [he, hu', ne_eq, not_false_eq_true, if_true] at hps
              exact main (starName n.seg.pattern) (join [slash] (s :: splitB slash uri))
                (by simp only [bindSeg, hkind, he, hu, if_false])
                (by rw [← hj]; exact hps)
end

end Water
