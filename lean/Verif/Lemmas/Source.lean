import Verif.Lemmas.Dispatch
/- Helper lemmas: where the values in the parameter map come from. -/
namespace Water
open Spec
variable {α : Type}

/-- a regexp sub node on the way of the segments captures `v` as `x` -/
inductive TCap (rx : Regex) : Node α → List Str → Str → Str → Prop where
  | here {n s : Node α} {a b : Str} {ss : List Str} {x v : Str} : s ∈ n.subs → s.seg.typ = .regexp → segAcc rx s.seg a = true →
      (x, v) ∈ s.seg.wildcards.zip ((rx.find s.seg.reg a).drop 1) → TCap rx n (a :: b :: ss) x v
  | there {n s : Node α} {a : Str} {ss : List Str} {x v : Str} : s ∈ n.subs → segAcc rx s.seg a = true → TCap rx s ss x v →
      TCap rx n (a :: ss) x v

theorem TCap.table {rx : Regex} {tbl : List (Entry α)} {n : Node α} (hb : Built rx tbl n) {ss : List Str} {x v : Str}
    (h : TCap rx n ss x v) : ∃ y ∈ tbl, Captures rx y.segs ss x v := by
  induction h generalizing tbl with
  | @here n s a b ss x v hs ht ha hx =>
    cases hb with
    | mk endsOrd endsOk endsAll subsOrd subsOk subsAll subsBuilt =>
      obtain ⟨h1, y, hy, q, rest, h2⟩ := subsOk s hs
      obtain ⟨_, _, h3, h4, _, _⟩ := analyze_spec h1
      refine ⟨y, hy, ?_⟩
      rw [h2]
      refine .here (by rw [← h3, ht]; rfl) ((segAcc_iff h1 a).1 ha) ?_
      rw [(h4 ht).1, (h4 ht).2] at hx
      exact hx
  | @there n s a ss x v hs ha _ ih =>
    cases hb with
    | mk endsOrd endsOk endsAll subsOrd subsOk subsAll subsBuilt =>
      obtain ⟨y, hy, hc⟩ := ih (subsBuilt s hs)
      obtain ⟨_, z, hz, h2, _⟩ := mem_below.1 hy
      exact ⟨z, hz, by rw [h2]; exact .there ((segAcc_iff (subsOk s hs).1 a).1 ha) hc⟩

/-- the same for a list of sub nodes -/
def TCapL (rx : Regex) (subs : List (Node α)) (a : Str) (ss : List Str) (x v : Str) : Prop :=
  ∃ s ∈ subs, segAcc rx s.seg a = true ∧
    (s.seg.typ = .regexp ∧ (x, v) ∈ s.seg.wildcards.zip ((rx.find s.seg.reg a).drop 1) ∨ TCap rx s ss x v)

theorem TCapL.tree {rx : Regex} {seg : Seg} {subs : List (Node α)} {ends : List (EndNode α)} {a : Str} {ss : List Str} {x v : Str}
    (h : TCapL rx subs a ss x v) (hne : ss ≠ []) : TCap rx (.mk seg subs ends) (a :: ss) x v := by
  obtain ⟨s, hs, ha, ⟨ht, hx⟩ | hc⟩ := h
  · obtain ⟨b, ss, rfl⟩ := List.exists_cons_of_ne_nil hne
    exact .here hs ht ha hx
  · exact .there hs ha hc

theorem setAll_source {ps : Params} {ws rs : List Str} {x v : Str} (h : setAll ps ws rs x = some v) :
    ps x = some v ∨ (x, v) ∈ ws.zip rs := by
  induction ws generalizing ps rs with
  | nil => simp only [setAll] at h; exact .inl h
  | cons w ws ih =>
    cases rs with
    | nil => simp only [setAll] at h; exact .inl h
    | cons r rs =>
      simp only [setAll] at h
      rcases ih h with h | h
      · by_cases hx : x = w
        · subst hx
          rw [Map.set_same] at h
          injection h with h
          subst h
          exact .inr (by simp)
        · rw [Map.set_other _ _ hx] at h
          exact .inl h
      · exact .inr (by simp [h])

theorem set_source {ps : Params} {k w x v : Str} (h : ps.set k w x = some v) : ps x = some v ∨ (x, v) = (k, w) := by
  by_cases hx : x = k
  · subst hx
    rw [Map.set_same] at h
    injection h with h
    exact .inr (by rw [h])
  · rw [Map.set_other _ _ hx] at h
    exact .inl h

theorem endWrite_source {rx : Regex} {g : Nat} {seg : Seg} (hok : SegOk rx seg) {s rest : Str} {ps ps' : Params}
    (hw : ps' = match seg.typ with
      | .static => ps
      | .regexp => setAll ps seg.wildcards ((rx.find seg.reg s).drop 1)
      | .holder => if seg.parsed ≠ [95] then ps.set seg.parsed s else ps
      | .matchAll => setGlob seg g rest ps) {x v : Str} (h : ps' x = some v) :
    ps x = some v ∨ (x, v) ∈ bindSeg rx g seg.pattern s rest rest := by
  obtain ⟨_, _, h3, h4, h5, h6⟩ := analyze_spec hok
  unfold bindSeg
  rw [← h3]
  cases ht : seg.typ with
  | static =>
    rw [ht] at hw
    rw [hw] at h
    exact .inl h
  | regexp =>
    rw [ht] at hw
    rw [hw] at h
    obtain ⟨h7, h8⟩ := h4 ht
    rw [← h7, ← h8]
    exact setAll_source h
  | holder =>
    rw [ht] at hw
    simp only [PTyp.kind]
    rw [h5 ht] at hw
    unfold underscore
    by_cases hu : nameText seg.pattern = [95]
    · simp only [hu, ne_eq, not_true_eq_false, if_false] at hw
      rw [hw] at h
      exact .inl h
    · simp only [hu, ne_eq, not_false_eq_true, if_true] at hw
      rw [hw] at h
      rw [if_neg hu]
      rcases set_source h with h | h
      · exact .inl h
      · exact .inr (by rw [h]; simp)
  | matchAll =>
    rw [ht] at hw
    simp only [PTyp.kind]
    unfold setGlob globKey at hw
    rw [h6 ht] at hw
    unfold underscore anonKey
    rw [hw] at h
    by_cases he : starName seg.pattern = []
    · rw [if_pos he]
      simp only [he, if_true] at h
      rcases set_source h with h | h
      · exact .inl h
      · exact .inr (by rw [h]; simp)
    · rw [if_neg he]
      by_cases hu : starName seg.pattern = [95]
      · simp [hu] at h
        exact .inl h
      · rw [if_neg hu]
        simp [he, hu] at h
        rcases set_source h with h | h
        · exact .inl h
        · exact .inr (by rw [h]; simp)

theorem matchEnds_source {rx : Regex} {g : Nat} {uri : Str} {ends : List (EndNode α)} {ps ps' : Params} {o : Option (EndNode α)}
    (hok : ∀ e ∈ ends, SegOk rx e.seg) (h : matchEnds rx g uri ends ps = (ps', o)) {x v : Str} (hx : ps' x = some v) :
    ps x = some v ∨ ∃ e, o = some e ∧ (x, v) ∈ bindSeg rx g e.seg.pattern uri uri uri := by
  induction ends with
  | nil =>
    simp only [matchEnds, Prod.mk.injEq] at h
    obtain ⟨rfl, rfl⟩ := h
    exact .inl hx
  | cons e0 es ih =>
    have ih := ih (fun e he => hok e (by simp [he]))
    have hok0 := hok e0 (by simp)
    have hit : (ps', o) = ((match e0.seg.typ with
        | .static => ps
        | .regexp => setAll ps e0.seg.wildcards ((rx.find e0.seg.reg uri).drop 1)
        | .holder => if e0.seg.parsed ≠ [95] then ps.set e0.seg.parsed uri else ps
        | .matchAll => setGlob e0.seg g uri ps), some e0) →
        ps x = some v ∨ ∃ e, o = some e ∧ (x, v) ∈ bindSeg rx g e.seg.pattern uri uri uri := by
      intro heq
      simp only [Prod.mk.injEq] at heq
      obtain ⟨h1, rfl⟩ := heq
      rcases endWrite_source (s := uri) (rest := uri) hok0 h1 hx with h | h
      · exact .inl h
      · exact .inr ⟨e0, rfl, h⟩
    unfold matchEnds at h
    cases ht : e0.seg.typ with
    | static =>
      rw [ht] at h hit
      simp only [] at h hit
      split at h
      · exact hit h.symm
      · exact ih h
    | regexp =>
      rw [ht] at h hit
      simp only [] at h hit
      split at h
      · exact ih h
      · exact hit h.symm
    | holder =>
      rw [ht] at h hit
      exact hit h.symm
    | matchAll =>
      rw [ht] at h hit
      exact hit h.symm

theorem sel_ne {rx : Regex} {n : Node α} {ss r : List Str} {e : EndNode α} (h : sel rx n ss = some (r, e)) : r ≠ [] := by
  cases n with
  | mk sg sb en =>
    match ss with
    | [] => simp [sel] at h
    | [t] =>
      simp only [sel, Option.map_eq_some_iff, Prod.mk.injEq] at h
      obtain ⟨_, _, h1, _⟩ := h
      rw [← h1]; simp
    | t :: t2 :: ss =>
      simp only [sel, Option.or_eq_some_iff] at h
      rcases h with h | ⟨_, h⟩
      · obtain ⟨_, m, _, r1, _, _, _, h1, _⟩ := selSubs_some h
        rw [h1]; simp
      · obtain ⟨_, _, h1, _⟩ := lastStar_some h
        rw [h1]; simp

theorem bindings_cons {rx : Regex} {g : Nat} {p s : Str} {r ss : List Str} (hr : r ≠ []) :
    bindings rx g (p :: r) (s :: ss) = bindSeg rx g p s (join [slash] (s :: ss)) s ++ bindings rx (if kind p = .star then g + 1 else g) r ss := by
  obtain ⟨q, r, rfl⟩ := List.exists_cons_of_ne_nil hr
  simp only [bindings]

mutual
/-- every value in the map after a search was there before, was captured on the way, or is a binding of the route found -/
theorem matchNext_source (rx : Regex) (n : Node α) (g : Nat) (uri : Str) (ps ps' : Params) (o : Option (EndNode α))
    (hok : TreeOk rx n) (h : matchNext rx n g uri ps = (ps', o)) (x v : Str) (hx : ps' x = some v) :
    ps x = some v ∨ TCap rx n (splitB slash uri) x v ∨
      ∃ r e, sel rx n (splitB slash uri) = some (r, e) ∧ (x, v) ∈ bindings rx g r (splitB slash uri) := by
  cases n with
  | mk seg subs ends =>
    have hsnd := matchNext_snd rx (.mk seg subs ends) g uri ps
    rw [h] at hsnd
    unfold matchNext at h
    cases hi : indexByte uri slash with
    | none =>
      rw [hi] at h
      simp only [] at h
      rw [splitB_index_none hi] at hsnd ⊢
      rcases matchEnds_source (by cases hok with | mk h1 _ _ => exact h1) h hx with h1 | ⟨e, rfl, h1⟩
      · exact .inl h1
      · refine .inr (.inr ?_)
        simp only [sel] at hsnd ⊢
        cases hf : ends.find? (fun e => segAcc rx e.seg uri) with
        | none => rw [hf] at hsnd; simp at hsnd
        | some e' =>
          rw [hf] at hsnd
          simp only [Option.map_some, Option.some.injEq] at hsnd
          subst hsnd
          exact ⟨_, _, rfl, by simpa only [bindings, join] using h1⟩
    | some i =>
      rw [hi] at h
      simp only [] at h
      rw [splitB_index_some hi]
      have hne : splitB slash (uri.drop (i + 1)) ≠ [] := splitB_ne_nil _ _
      rcases matchSubs_source rx subs ends g (uri.take i) (uri.drop (i + 1)) ps ps' o seg hok h x v hx with h1 | h1 | ⟨r, e, h1, h2⟩
      · exact .inl h1
      · exact .inr (.inl (h1.tree hne))
      · refine .inr (.inr ⟨r, e, ?_, h2⟩)
        obtain ⟨t, ss, hts⟩ := List.exists_cons_of_ne_nil hne
        rw [hts] at h1 ⊢
        exact h1
theorem matchSubs_source (rx : Regex) (subs : List (Node α)) (ends : List (EndNode α)) (g : Nat) (s uri : Str)
    (ps ps' : Params) (o : Option (EndNode α)) (seg : Seg) (hok : TreeOk rx (.mk seg subs ends))
    (h : matchSubs rx subs ends g s uri ps = (ps', o)) (x v : Str) (hx : ps' x = some v) :
    ps x = some v ∨ TCapL rx subs s (splitB slash uri) x v ∨
      ∃ r e, (selSubs rx subs s (splitB slash uri)).or (lastStar ends) = some (r, e) ∧
        (x, v) ∈ bindings rx g r (s :: splitB slash uri) := by
  cases subs with
  | nil =>
    unfold matchSubs matchFallback at h
    cases hl : ends.getLast? with
    | none =>
      rw [hl] at h
      simp only [Prod.mk.injEq] at h
      obtain ⟨rfl, rfl⟩ := h
      exact .inl hx
    | some e =>
      rw [hl] at h
      simp only [] at h
      split at h
      · rename_i ht
        simp only [Prod.mk.injEq] at h
        have hseg : SegOk rx e.seg := by cases hok with | mk h1 _ _ => exact h1 e (List.mem_of_getLast? hl)
        have hj : s ++ [slash] ++ uri = join [slash] (s :: splitB slash uri) := by
          rw [join_cons_ne (splitB_ne_nil _ _), join_splitB]
        rcases endWrite_source (g := g) (s := s) (rest := s ++ [slash] ++ uri) (ps := ps) hseg (by rw [ht]; exact h.1.symm) hx with h1 | h1
        · exact .inl h1
        · refine .inr (.inr ⟨[e.seg.pattern], e, ?_, ?_⟩)
          · simp [selSubs, lastStar, hl, ht]
          · simpa only [bindings, ← hj] using h1
      · simp only [Prod.mk.injEq] at h
        obtain ⟨rfl, rfl⟩ := h
        exact .inl hx
  | cons n ns =>
    have hokn : SegOk rx n.seg ∧ TreeOk rx n := hok.sub (by simp [Node.subs])
    obtain ⟨_, _, hk, hk4, hk5, hk6⟩ := analyze_spec hokn.1
    have hmono : TCapL rx ns s (splitB slash uri) x v → TCapL rx (n :: ns) s (splitB slash uri) x v :=
      fun ⟨m, hm, h⟩ => ⟨m, by simp [hm], h⟩
    have hj : s ++ [slash] ++ uri = join [slash] (s :: splitB slash uri) := by
      rw [join_cons_ne (splitB_ne_nil _ _), join_splitB]
    -- `n` does not accept the segment
    have hskip : segAcc rx n.seg s = false → matchSubs rx ns ends g s uri ps = (ps', o) →
        ps x = some v ∨ TCapL rx (n :: ns) s (splitB slash uri) x v ∨
          ∃ r e, (selSubs rx (n :: ns) s (splitB slash uri)).or (lastStar ends) = some (r, e) ∧
            (x, v) ∈ bindings rx g r (s :: splitB slash uri) := by
      intro ha h
      rcases matchSubs_source rx ns ends g s uri ps ps' o seg hok.tl h x v hx with h1 | h1 | ⟨r, e, h1, h2⟩
      · exact .inl h1
      · exact .inr (.inl (hmono h1))
      · refine .inr (.inr ⟨r, e, ?_, h2⟩)
        unfold selSubs
        rw [if_neg (by simp [ha])]
        exact h1
    -- `n` accepts it; `ps0` is what is handed down, `own` what is written after success
    have hgo : ∀ (g' : Nat) (ps0 ps1 : Params) (o1 : Option (EndNode α)) (own : Params), segAcc rx n.seg s = true →
        g' = (if kind n.seg.pattern = .star then g + 1 else g) →
        (ps0 x = some v → ps x = some v ∨ n.seg.typ = .regexp ∧ (x, v) ∈ n.seg.wildcards.zip ((rx.find n.seg.reg s).drop 1)) →
        matchNext rx n g' uri ps0 = (ps1, o1) →
        (own x = some v → ps1 x = some v ∨ (x, v) ∈ bindSeg rx g n.seg.pattern s (join [slash] (s :: splitB slash uri)) s) →
        (match o1 with | some e => (own, some e) | none => matchSubs rx ns ends g s uri ps1) = (ps', o) →
        ps x = some v ∨ TCapL rx (n :: ns) s (splitB slash uri) x v ∨
          ∃ r e, (selSubs rx (n :: ns) s (splitB slash uri)).or (lastStar ends) = some (r, e) ∧
            (x, v) ∈ bindings rx g r (s :: splitB slash uri) := by
      intro g' ps0 ps1 o1 own ha hg h0 hm hown h
      have hsnd := matchNext_snd rx n g' uri ps0
      rw [hm] at hsnd
      have hdown : ps1 x = some v → ps x = some v ∨ TCapL rx (n :: ns) s (splitB slash uri) x v ∨
          ∃ r e, sel rx n (splitB slash uri) = some (r, e) ∧ (x, v) ∈ bindings rx g' r (splitB slash uri) := by
        intro h1
        rcases matchNext_source rx n g' uri ps0 ps1 o1 hokn.2 hm x v h1 with h2 | h2 | h2
        · rcases h0 h2 with h3 | h3
          · exact .inl h3
          · exact .inr (.inl ⟨n, by simp, ha, .inl h3⟩)
        · exact .inr (.inl ⟨n, by simp, ha, .inr h2⟩)
        · exact .inr (.inr h2)
      cases o1 with
      | some e =>
        simp only [Prod.mk.injEq] at h
        obtain ⟨rfl, rfl⟩ := h
        rcases hsel : sel rx n (splitB slash uri) with _ | ⟨r0, e0⟩
        · rw [hsel] at hsnd; simp at hsnd
        · have hall : (selSubs rx (n :: ns) s (splitB slash uri)).or (lastStar ends) = some (n.seg.pattern :: r0, e0) := by
            unfold selSubs
            rw [if_pos ha, hsel]
            rfl
          have hbc := bindings_cons (rx := rx) (g := g) (p := n.seg.pattern) (s := s) (ss := splitB slash uri) (sel_ne hsel)
          rcases hown hx with h1 | h1
          · rcases hdown h1 with h2 | h2 | ⟨r, e', h2, h3⟩
            · exact .inl h2
            · exact .inr (.inl h2)
            · refine .inr (.inr ⟨_, _, hall, ?_⟩)
              rw [hsel] at h2
              simp only [Option.some.injEq, Prod.mk.injEq] at h2
              obtain ⟨rfl, rfl⟩ := h2
              rw [hbc, ← hg]
              exact List.mem_append.2 (.inr h3)
          · refine .inr (.inr ⟨_, _, hall, ?_⟩)
            rw [hbc]
            exact List.mem_append.2 (.inl h1)
      | none =>
        simp only [] at h
        rcases hsel : sel rx n (splitB slash uri) with _ | ⟨r0, e0⟩
        · rcases matchSubs_source rx ns ends g s uri ps1 ps' o seg hok.tl h x v hx with h1 | h1 | ⟨r, e, h1, h2⟩
          · rcases hdown h1 with h2 | h2 | ⟨r, e', h2, _⟩
            · exact .inl h2
            · exact .inr (.inl h2)
            · rw [hsel] at h2; cases h2
          · exact .inr (.inl (hmono h1))
          · refine .inr (.inr ⟨r, e, ?_, h2⟩)
            unfold selSubs
            rw [if_pos ha, hsel]
            exact h1
        · rw [hsel] at hsnd; simp at hsnd
    unfold matchSubs at h
    cases ht : n.seg.typ with
    | static =>
      rw [ht] at h hk
      have hkind : kind n.seg.pattern = .literal := hk.symm
      simp only [] at h
      by_cases hp : n.seg.pattern = s
      · rw [if_pos hp] at h
        rcases hm : matchNext rx n g uri ps with ⟨ps1, o1⟩
        rw [hm] at h
        refine hgo g ps ps1 o1 ps1 (by unfold segAcc; rw [ht]; simpa using hp) (by rw [hkind]; rfl) .inl hm .inl ?_
        cases o1 <;> exact h
      · rw [if_neg hp] at h
        exact hskip (by unfold segAcc; rw [ht]; simpa using hp) h
    | regexp =>
      rw [ht] at h hk
      have hkind : kind n.seg.pattern = .regexp := hk.symm
      simp only [] at h
      by_cases hp : ((rx.find n.seg.reg s).length : Int) - 1 = n.seg.wildcards.length
      · rw [if_neg (by simpa using hp)] at h
        rcases hm : matchNext rx n g uri (setAll ps n.seg.wildcards ((rx.find n.seg.reg s).drop 1)) with ⟨ps1, o1⟩
        rw [hm] at h
        refine hgo g _ ps1 o1 ps1 (by unfold segAcc; rw [ht]; simpa using hp) (by rw [hkind]; rfl) ?_ hm .inl ?_
        · intro h1
          rcases setAll_source h1 with h2 | h2
          · exact .inl h2
          · exact .inr ⟨ht, h2⟩
        · cases o1 <;> exact h
      · rw [if_pos (by simpa using hp)] at h
        exact hskip (by unfold segAcc; rw [ht]; simpa using hp) h
    | holder =>
      rw [ht] at h hk
      have hkind : kind n.seg.pattern = .name := hk.symm
      have hpar := hk5 ht
      simp only [] at h
      rcases hm : matchNext rx n g uri ps with ⟨ps1, o1⟩
      rw [hm] at h
      refine hgo g ps ps1 o1 (if n.seg.parsed ≠ [95] then ps1.set n.seg.parsed s else ps1) (by unfold segAcc; rw [ht])
        (by rw [hkind]; rfl) .inl hm ?_ ?_
      · intro h1
        rw [hpar] at h1
        by_cases hu : nameText n.seg.pattern = [95]
        · rw [if_neg (by simp [hu])] at h1
          exact .inl h1
        · rw [if_pos hu] at h1
          rcases set_source h1 with h2 | h2
          · exact .inl h2
          · refine .inr ?_
            have hu' : nameText n.seg.pattern ≠ underscore := hu
            simp only [bindSeg, hkind]
            rw [if_neg hu', h2]
            simp
      · cases o1 <;> exact h
    | matchAll =>
      rw [ht] at h hk
      have hkind : kind n.seg.pattern = .star := hk.symm
      have hpar := hk6 ht
      simp only [] at h
      rcases hm : matchNext rx n (g + 1) uri ps with ⟨ps1, o1⟩
      rw [hm] at h
      refine hgo (g + 1) ps ps1 o1 (if n.seg.parsed ≠ [] then
          (if n.seg.parsed ≠ [95] then ps1.set n.seg.parsed (s ++ [slash] ++ uri) else ps1) else ps1.set (globKey g) s)
        (by unfold segAcc; rw [ht]) (by rw [hkind]; rfl) .inl hm ?_ ?_
      · intro h1
        rw [hpar, hj] at h1
        simp only [bindSeg, hkind]
        by_cases he : starName n.seg.pattern = []
        · rw [if_neg (by simp [he])] at h1
          rw [if_pos he]
          rcases set_source h1 with h2 | h2
          · exact .inl h2
          · refine .inr ?_
            rw [h2]
            simp [anonKey, globKey]
        · rw [if_pos he] at h1
          rw [if_neg he]
          by_cases hu : starName n.seg.pattern = [95]
          · rw [if_neg (by simp [hu])] at h1
            exact .inl h1
          · have hu' : starName n.seg.pattern ≠ underscore := hu
            rw [if_pos hu] at h1
            rw [if_neg hu']
            rcases set_source h1 with h2 | h2
            · exact .inl h2
            · exact .inr (by rw [h2]; simp)
      · cases o1 <;> exact h
end

/-- every value in Params is a binding of the pattern found, or was captured by a registered pattern whose beginning accepts -/
theorem params_source {rx : Regex} {nf : List α} {rs : List (Route α)} {e : Engine α}
    (h : mkEngine rx false nf rs = .ok e) {m path : Str} {ps : Params} (hp : paramsOf rx e m path = some ps) {x v : Str}
    (hx : ps x = some v) :
    (∃ n r, routeOf rx e m path = some n ∧ Accepts rx r (pathSegs path) ∧ LastUri (tableFor m rs) r n.uri ∧
      (x, v) ∈ bindings rx 0 r (pathSegs path)) ∨ ∃ y ∈ tableFor m rs, Captures rx y.segs (pathSegs path) x v := by
  obtain ⟨hinv, hst, _, _⟩ := mkEngine_inv h
  unfold paramsOf at hp
  unfold routeOf
  cases hi : methodIndex m with
  | none => rw [hi] at hp; cases hp
  | some i =>
    rw [hi] at hp
    have h1 := hinv m i hi
    unfold lookup at hp ⊢
    rw [hst] at hp ⊢
    cases ht : e.trees i with
    | none => simp [ht] at hp
    | some t =>
      rw [ht] at h1
      simp only [Bool.false_eq_true, if_false, ht, Option.join_some, Option.some.injEq] at hp ⊢
      subst hp
      have hmm : matchNext rx t 0 (trimSuffix (trimPrefix path [slash]) [slash]) Map.empty =
          ((matchUri rx (some t) path).1, (matchUri rx (some t) path).2) := rfl
      have hsnd := matchUri_snd rx t path
      rw [pathSegs_eq] at hsnd ⊢
      rcases matchNext_source rx t 0 _ Map.empty _ _ h1.1.treeOk hmm x v hx with h2 | h2 | ⟨r, n, h2, h3⟩
      · cases h2
      · exact .inr (h2.table h1.1)
      · left
        rw [h2] at hsnd
        obtain ⟨ha, _, hu, _⟩ := sel_spec h1.1 h2
        exact ⟨n, r, hsnd, ha, hu, h3⟩

end Water
