import Verif.Lemmas.Pointers2
/-
Adding a route to a tree in memory is adding it to the tree as a value.
-/
namespace Water
open Spec
variable {α : Type}

/-- `addNextP` on the segments of a pattern -/
def addSegsP (rx : Regex) (hs : List α) : List Str → THeap α → Nat → Except Panic (Nat × THeap α)
  | [], _, _ => .error .noSuchRouter
  | [p], h, a => addEndP rx hs h a p
  | p :: q :: rest, h, a =>
    match h[a]? with
    | none => .error .noSuchRouter
    | some n =>
      match findP h p n.subNodes with
      | some s => addSegsP rx hs (q :: rest) h s
      | none => do
        let seg ← analyzePattern rx p
        let h1 := h ++ [bareNode a seg []]
        let h2 := h1.modify a (fun p => { p with subNodes := insertP p.subNodes (placeP h1 seg.typ p.subNodes) h.length })
        addSegsP rx hs (q :: rest) h2 h.length

theorem addSegmentsF_cons (f : Nat) (p : Str) : ∃ q rest, addSegmentsF f p = q :: rest := by
  cases f with
  | zero => exact ⟨p, [], rfl⟩
  | succ f =>
    unfold addSegmentsF
    simp only []
    split <;> exact ⟨_, _, rfl⟩

theorem trimPrefix_le (p : Str) : (trimPrefix p [slash]).length ≤ p.length := by
  rw [trimPrefix_one]
  split
  · simp
  · exact Nat.le_refl _

theorem addNextP_segs (rx : Regex) (hs : List α) (f : Nat) (h : THeap α) (a : Nat) (p : Str) (hf : p.length < f) :
    addNextP rx hs f h a p = addSegsP rx hs (addSegmentsF f p) h a := by
  induction f generalizing h a p with
  | zero => omega
  | succ f ih =>
    have hle := trimPrefix_le p
    simp only [addNextP, addSegmentsF]
    cases hi : indexByte (trimPrefix p [slash]) slash with
    | none => rfl
    | some i =>
      have hlt := (indexByte_some hi).1
      have hd : ((trimPrefix p [slash]).drop (i + 1)).length < f := by
        rw [List.length_drop]
        omega
      obtain ⟨q, rest, hq⟩ := addSegmentsF_cons f ((trimPrefix p [slash]).drop (i + 1))
      simp only [hq, addSegsP]
      cases h[a]? with
      | none => rfl
      | some n =>
        simp only []
        cases findP h ((trimPrefix p [slash]).take i) n.subNodes with
        | some s => simp only []; rw [ih h s _ hd, hq]
        | none =>
          simp only []
          cases analyzePattern rx ((trimPrefix p [slash]).take i) with
          | error x => rfl
          | ok seg =>
            simp only [bind, Except.bind]
            rw [ih _ _ _ hd, hq]

theorem addP_segs (rx : Regex) (hs : List α) (h : THeap α) (a : Nat) (p : Str) :
    addP rx hs h a p = addSegsP rx hs (addSegments p) h a := by
  unfold addP addSegments
  exact addNextP_segs rx hs _ h a _ (by omega)

/-- what adding a route does to memory -/
structure Added (h h' : THeap α) (a e : Nat) (segs : List Str) (n' : Node α) : Prop where
  forest : Forest h'
  keeps : Keeps h h'
  rep : Rep h' n' a
  walk : walkP h' segs a = some e
  frame : ∀ (b : Nat) (m : PNode α), h[b]? = some m → ¬ IsAbove h a b → h'[b]? = some m
  rooted : ∀ (b : Nat) (m : PNode α), h'[b]? = some m → m.parent = none → ∃ m0 : PNode α, h[b]? = some m0

theorem reps_frame {h h' : THeap α} (hf : Forest h) {ts : List (Node α)} {l : List Nat} (hr : Reps h ts l)
    (hs : ∀ c ∈ l, ∀ (b : Nat) (n : PNode α), h[b]? = some n → IsAbove h c b → h'[b]? = some n) : Reps h' ts l := by
  induction ts generalizing l with
  | nil => cases l with | nil => trivial | cons _ _ => exact hr
  | cons t ts ih =>
    cases l with
    | nil => exact hr
    | cons c l => exact ⟨rep_frame hf hr.1 (hs c List.mem_cons_self), ih hr.2 (fun d hd => hs d (List.mem_cons_of_mem _ hd))⟩

theorem child_gt {h : THeap α} (hf : Forest h) {a c : Nat} {n : PNode α} (ha : h[a]? = some n) (hc : c ∈ n.subNodes ++ n.endNodes) :
    a < c := by
  obtain ⟨x, h1, h2⟩ := hf.down a n ha c hc
  exact hf.up c x h1 a h2

/-- the end of a pattern -/
theorem addEnd_added {rx : Regex} {hs : List α} {u p : Str} {h : THeap α} (hf : Forest h) {a : Nat} {n : Node α} (hr : Rep h n a) :
    match addSegs rx hs u [p] n with
    | .error x => addEndP rx hs h a p = .error x
    | .ok n' => ∃ e h', addEndP rx hs h a p = .ok (e, h') ∧ Added h (setMatch h' e u) a e [p] n' := by
  obtain ⟨seg, subs, ends⟩ := n
  obtain ⟨pn, ha, h2, h3, h4⟩ := hr
  have hnd := hf.once a pn ha
  have hnd2 := List.nodup_append.1 hnd
  simp only [addSegs, addEndP, ha]
  cases hfd : findP h p pn.endNodes with
  | some e =>
    obtain ⟨i, k1, k2⟩ := ends_found u h4 hnd2.2.1 hfd
    have hmem := (findP_mem hfd).1
    have hmem' : e ∈ pn.subNodes ++ pn.endNodes := List.mem_append_right _ hmem
    have hgt := child_gt hf ha hmem'
    simp only [addEnd, k1, bind, Except.bind, pure, Except.pure]
    refine ⟨e, h, rfl, setMatch_forest hf e u, setMatch_keeps hf e u, ?_, ?_, ?_, fun b m hb _ => ?_⟩
    · refine ⟨pn, by rw [setMatch_get, if_neg (by omega)]; exact ha, h2, ?_, k2⟩
      refine reps_frame hf h3 (fun c hc b m hb hab => ?_)
      have hc' : c ∈ pn.subNodes ++ pn.endNodes := List.mem_append_left _ hc
      rw [setMatch_get, if_neg, hb]
      intro hbe
      subst hbe
      have := IsAbove.siblings hf ha hc' hmem' hab .refl
      exact hnd2.2.2 c hc b hmem this
    · have := (setMatch_keeps hf e u).walk (segs := [p]) (a := a) (e := e) (by simp only [walkP, ha]; exact hfd)
      exact this
    · intro b m hb hab
      rw [setMatch_get, if_neg, hb]
      intro hbe
      subst hbe
      exact hab (IsAbove.child hf ha hmem' .refl)
    · obtain ⟨m0, h1, _⟩ := setMatch_back hb
      exact ⟨m0, h1⟩
  | none =>
    have k1 := ends_none h4 hfd
    simp only [addEnd, k1]
    cases hseg : analyzePattern rx p with
    | error x => rfl
    | ok sg =>
      have hpat := (analyze_spec hseg).1
      simp only [bind, Except.bind, pure, Except.pure]
      refine ⟨h.length, _, rfl, ?_⟩
      have ht := attachEnd ha sg hs (placeP (h ++ [bareNode a sg hs]) sg.typ pn.endNodes)
      have hkeep := attachEnd_keeps hf ha sg hs (placeP (h ++ [bareNode a sg hs]) sg.typ pn.endNodes) (by rw [hpat]; exact hfd)
      have hlt := lt_of_get ha
      have hmod : (h ++ [bareNode a sg hs]).modify a
            (fun p => { p with endNodes := insertP p.endNodes (placeP (h ++ [bareNode a sg hs]) sg.typ p.endNodes) h.length }) =
          (h ++ [bareNode a sg hs]).modify a
            (fun p => { p with endNodes := insertP p.endNodes (placeP (h ++ [bareNode a sg hs]) sg.typ pn.endNodes) h.length }) := by
        apply List.ext_getElem?
        intro b
        rw [attach_get ha, attach_get ha]
      rw [hmod]
      have hget := attach_get (x := bareNode a sg hs) ha
        (fun p => { p with endNodes := insertP p.endNodes (placeP (h ++ [bareNode a sg hs]) sg.typ pn.endNodes) h.length })
      have hf2 := ht.forest hf
      generalize (h ++ [bareNode a sg hs]).modify a
        (fun p => { p with endNodes := insertP p.endNodes (placeP (h ++ [bareNode a sg hs]) sg.typ pn.endNodes) h.length }) = h2'
        at hkeep hget hf2
      have hget2 : ∀ b, b < h.length → b ≠ a → (setMatch h2' h.length u)[b]? = h[b]? := by
        intro b hb hba
        rw [setMatch_get, if_neg (by omega), hget, if_neg (by omega), if_neg hba]
      have hself : (setMatch h2' h.length u)[a]? =
          some { pn with endNodes := insertP pn.endNodes (placeP (h ++ [bareNode a sg hs]) sg.typ pn.endNodes) h.length } := by
        rw [setMatch_get, if_neg (by omega), hget, if_neg (by omega), if_pos rfl]
      have hnew : (setMatch h2' h.length u)[h.length]? = some { bareNode a sg hs with matchNode := some u } := by
        rw [setMatch_get, if_pos rfl, hget, if_pos rfl]; rfl
      have hk2 := hkeep.trans (setMatch_keeps hf2 h.length u)
      refine ⟨setMatch_forest hf2 _ u, hk2, ?_, ?_, ?_, ?_⟩
      · refine ⟨_, hself, h2, ?_, ?_⟩
        · refine reps_frame hf h3 (fun c hc b m hb hab => ?_)
          have hgt := child_gt hf ha (List.mem_append_left _ hc)
          have hle := IsAbove.le hf hab
          rw [hget2 b (lt_of_get hb) (by omega), hb]
        · refine ends_insert (e := { seg := sg, handlers := hs, uri := u }) ⟨_, hnew, rfl, rfl, rfl⟩ h4 (fun b hb => ?_)
          have hgt := child_gt hf ha (List.mem_append_right _ hb)
          obtain ⟨x, hx, _⟩ := hf.down a pn ha b (List.mem_append_right _ hb)
          exact ⟨List.getElem?_append_left (lt_of_get hx), hget2 b (lt_of_get hx) (by omega)⟩
      · simp only [walkP, hself]
        have := findP_new (i := placeP (h ++ [bareNode a sg hs]) sg.typ pn.endNodes) (l := pn.endNodes) hnew (by
          show findP _ sg.pattern _ = none
          rw [hpat, find_grows hf hk2.grows ha (fun b hb => List.mem_append_right _ hb)]
          exact hfd)
        rw [show ({ bareNode a sg hs with matchNode := some u } : PNode α).seg.pattern = p from hpat] at this
        exact this
      · intro b m hb hab
        have : b ≠ a := fun h1 => hab (h1 ▸ .refl)
        rw [hget2 b (lt_of_get hb) this, hb]
      · intro b m hb hp
        obtain ⟨m0, g1, g2, _⟩ := setMatch_back hb
        rw [hget] at g1
        split at g1
        · injection g1 with g1
          rw [← g2, ← g1] at hp
          cases hp
        · split at g1
          · rename_i hba
            exact ⟨pn, by rw [hba]; exact ha⟩
          · exact ⟨m0, g1⟩

theorem added_spec {rx : Regex} {hs : List α} {u : Str} {segs : List Str} (hne : segs ≠ []) : ∀ {h : THeap α} (_ : Forest h) {a : Nat}
    {n : Node α} (_ : Rep h n a),
    match addSegs rx hs u segs n with
    | .error x => addSegsP rx hs segs h a = .error x
    | .ok n' => ∃ e h', addSegsP rx hs segs h a = .ok (e, h') ∧ Added h (setMatch h' e u) a e segs n' := by
  induction segs with
  | nil => exact absurd rfl hne
  | cons p rest ih =>
    intro h hf a n hr
    cases rest with
    | nil => exact addEnd_added hf hr
    | cons q rest =>
      obtain ⟨seg, subs, ends⟩ := n
      obtain ⟨pn, ha, h2, h3, h4⟩ := hr
      have hlt := lt_of_get ha
      have hnd := hf.once a pn ha
      have hnd2 := List.nodup_append.1 hnd
      simp only [addSegs, addSegsP, ha]
      cases hfd : findP h p pn.subNodes with
      | some c =>
        obtain ⟨i, sub, k1, k2, k3, k4⟩ := subs_found h3 hnd2.1 hfd
        have hmem : c ∈ pn.subNodes ++ pn.endNodes := List.mem_append_left _ (findP_mem hfd).1
        have hgt := child_gt hf ha hmem
        have hrec := ih (by simp) hf k3
        simp only [k1, k2]
        cases hok : addSegs rx hs u (q :: rest) sub with
        | error x =>
          rw [hok] at hrec
          exact hrec
        | ok sub' =>
          rw [hok] at hrec
          obtain ⟨e, h', r1, r2⟩ := hrec
          simp only [bind, Except.bind, pure, Except.pure]
          refine ⟨e, h', r1, r2.forest, r2.keeps, ?_, ?_, ?_, r2.rooted⟩
          · have hself := r2.frame a pn ha (fun hab => by have := IsAbove.le hf hab; omega)
            refine ⟨pn, hself, h2, ?_, ?_⟩
            · refine k4 _ sub' (fun b hb hbc t ht => ?_) r2.rep
              refine rep_frame hf ht (fun d m hd hbd => r2.frame d m hd (fun hcd => hbc ?_))
              exact IsAbove.siblings hf ha (List.mem_append_left _ hb) hmem hbd hcd
            · refine repEnds_same (fun b hb => ?_) h4
              have hb' : b ∈ pn.subNodes ++ pn.endNodes := List.mem_append_right _ hb
              obtain ⟨x, hx, _⟩ := hf.down a pn ha b hb'
              rw [hx]
              refine r2.frame b x hx (fun hcb => ?_)
              have := IsAbove.siblings hf ha hmem hb' hcb .refl
              exact hnd2.2.2 c (findP_mem hfd).1 b hb this
          · obtain ⟨n', g1, _, _, _, g5, _⟩ := r2.keeps a pn ha
            simp only [walkP, g1, g5 p c hfd]
            exact r2.walk
          · intro b m hb hab
            exact r2.frame b m hb (fun hcb => hab (IsAbove.child hf ha hmem hcb))
      | none =>
        have k1 := subs_none h3 hfd
        simp only [k1]
        cases hseg : analyzePattern rx p with
        | error x => rfl
        | ok sg =>
          have hpat := (analyze_spec hseg).1
          simp only [bind, Except.bind, pure, Except.pure]
          have ht := attachSub ha sg [] (placeP (h ++ [bareNode a sg []]) sg.typ pn.subNodes)
          have hkeep := attachSub_keeps hf ha sg [] (placeP (h ++ [bareNode a sg []]) sg.typ pn.subNodes) (by rw [hpat]; exact hfd)
          have hmod : (h ++ [bareNode a sg []]).modify a
                (fun p => { p with subNodes := insertP p.subNodes (placeP (h ++ [bareNode a sg []]) sg.typ p.subNodes) h.length }) =
              (h ++ [bareNode a sg []]).modify a
                (fun p => { p with subNodes := insertP p.subNodes (placeP (h ++ [bareNode a sg []]) sg.typ pn.subNodes) h.length }) := by
            apply List.ext_getElem?
            intro b
            rw [attach_get ha, attach_get ha]
          rw [hmod]
          have hget := attach_get (x := bareNode a sg []) ha
            (fun p => { p with subNodes := insertP p.subNodes (placeP (h ++ [bareNode a sg []]) sg.typ pn.subNodes) h.length })
          have hf2 := ht.forest hf
          generalize (h ++ [bareNode a sg []]).modify a
            (fun p => { p with subNodes := insertP p.subNodes (placeP (h ++ [bareNode a sg []]) sg.typ pn.subNodes) h.length }) = h2'
            at hkeep hget hf2 ⊢
          have hnew : h2'[h.length]? = some (bareNode a sg []) := by rw [hget, if_pos rfl]
          have hself2 : h2'[a]? =
              some { pn with subNodes := insertP pn.subNodes (placeP (h ++ [bareNode a sg []]) sg.typ pn.subNodes) h.length } := by
            rw [hget, if_neg (by omega), if_pos rfl]
          have hold : ∀ b, b < h.length → b ≠ a → h2'[b]? = h[b]? := by
            intro b hb hba
            rw [hget, if_neg (by omega), if_neg hba]
          have hin : h.length ∈ insertP pn.subNodes (placeP (h ++ [bareNode a sg []]) sg.typ pn.subNodes) h.length :=
            (insertP_perm _ _ _).mem_iff.2 List.mem_cons_self
          have hin' : ∀ b ∈ pn.subNodes, b ∈ insertP pn.subNodes (placeP (h ++ [bareNode a sg []]) sg.typ pn.subNodes) h.length :=
            fun b hb => (insertP_perm _ _ _).mem_iff.2 (List.mem_cons_of_mem _ hb)
          have hrec := ih (by simp) hf2 (a := h.length) (n := .mk sg [] []) ⟨bareNode a sg [], hnew, rfl, trivial, trivial⟩
          cases hok : addSegs rx hs u (q :: rest) (.mk sg [] []) with
          | error x =>
            rw [hok] at hrec
            exact hrec
          | ok sub' =>
            rw [hok] at hrec
            obtain ⟨e, h', r1, r2⟩ := hrec
            have hsg : sub'.seg = sg := addSegs_seg hok
            simp only []
            have hself := r2.frame a _ hself2 (fun hab => by have := IsAbove.le hf2 hab; omega)
            refine ⟨e, h', r1, r2.forest, hkeep.trans r2.keeps, ?_, ?_, ?_, fun b m hb hp => ?_⟩
            · refine ⟨_, hself, h2, ?_, ?_⟩
              · have := subs_insert (h1 := h ++ [bareNode a sg []]) r2.rep h3 (fun b hb => ?_)
                · rw [hsg] at this
                  exact this
                · obtain ⟨x, hx, _⟩ := hf.down a pn ha b (List.mem_append_left _ hb)
                  have hgt := child_gt hf ha (List.mem_append_left _ hb)
                  refine ⟨List.getElem?_append_left (lt_of_get hx), fun t hrt => ?_⟩
                  have hrt2 : Rep h2' t b := by
                    refine rep_frame hf hrt (fun d m hd hbd => ?_)
                    have := IsAbove.le hf hbd
                    rw [hold d (lt_of_get hd) (by omega), hd]
                  refine rep_frame hf2 hrt2 (fun d m hd hbd => r2.frame d m hd (fun hcd => ?_))
                  have := IsAbove.siblings hf2 hself2 (List.mem_append_left _ (hin' b hb)) (List.mem_append_left _ hin) hbd hcd
                  have := lt_of_get hx
                  omega
              · refine repEnds_same (fun b hb => ?_) h4
                have hb' : b ∈ pn.subNodes ++ pn.endNodes := List.mem_append_right _ hb
                obtain ⟨x, hx, _⟩ := hf.down a pn ha b hb'
                have hgt := child_gt hf ha hb'
                rw [hx]
                refine r2.frame b x (by rw [hold b (lt_of_get hx) (by omega), hx]) (fun hcb => ?_)
                have := IsAbove.le hf2 hcb
                have := lt_of_get hx
                omega
            · obtain ⟨c', g1, _, g3, _⟩ := r2.keeps h.length _ hnew
              have hcp : c'.seg.pattern = p := by rw [g3]; exact hpat
              have := findP_new (i := placeP (h ++ [bareNode a sg []]) sg.typ pn.subNodes) (l := pn.subNodes) g1 (by
                rw [hcp, find_grows hf (hkeep.trans r2.keeps).grows ha (fun b hb => List.mem_append_left _ hb)]
                exact hfd)
              rw [hcp] at this
              simp only [walkP, hself, this]
              exact r2.walk
            · intro b m hb hab
              have hba : b ≠ a := fun h1 => hab (h1 ▸ .refl)
              refine r2.frame b m (by rw [hold b (lt_of_get hb) hba, hb]) (fun hcb => ?_)
              have := IsAbove.le hf2 hcb
              have := lt_of_get hb
              omega
            · obtain ⟨m0, g1⟩ := r2.rooted b m hb hp
              have g0 := g1
              rw [hget] at g1
              split at g1
              · injection g1 with g1
                obtain ⟨m1, k1, k2, _⟩ := r2.keeps b m0 g0
                rw [hb] at k1
                injection k1 with k1
                rw [k1, k2, ← g1] at hp
                cases hp
              · split at g1
                · rename_i hba
                  exact ⟨pn, by rw [hba]; exact ha⟩
                · exact ⟨m0, g1⟩

end Water
