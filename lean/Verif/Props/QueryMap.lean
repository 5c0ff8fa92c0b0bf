import Verif.Spec.QueryMap
import Verif.Props.Url
import Verif.Props.RoundTrip
/-
C149: a map that is written into a query string comes back from QueryMap.
-/
namespace Water
open Spec

theorem asMap_mem {es : List (Str × Str)} (hd : (es.map Prod.fst).Nodup) {e : Str × Str} (h : e ∈ es) : asMap es e.1 = some e.2 := by
  induction es with
  | nil => cases h
  | cons x es ih =>
    obtain ⟨k, v⟩ := x
    rw [List.map_cons, List.nodup_cons] at hd
    show (if e.1 = k then some v else asMap es e.1) = some e.2
    rcases List.mem_cons.1 h with rfl | h
    · exact if_pos rfl
    · have hne : e.1 ≠ k := fun hk => hd.1 (List.mem_map.2 ⟨e, h, hk⟩)
      rw [if_neg hne]
      exact ih hd.2 h

theorem asMap_some {es : List (Str × Str)} {k v : Str} (h : asMap es k = some v) : (k, v) ∈ es := by
  induction es with
  | nil => cases h
  | cons x es ih =>
    obtain ⟨k', v'⟩ := x
    have h : (if k = k' then some v' else asMap es k) = some v := h
    by_cases e : k = k'
    · rw [if_pos e] at h
      cases h
      rw [e]
      exact List.mem_cons_self
    · rw [if_neg e] at h
      exact List.mem_cons_of_mem _ (ih h)

theorem entry_values {F : Form} (hd : (F.map Prod.fst).Nodup) {k : Str} {vs : List Str} (h : (k, vs) ∈ F) : values F k = vs := by
  induction F with
  | nil => cases h
  | cons x F ih =>
    obtain ⟨k', vs'⟩ := x
    rw [List.map_cons, List.nodup_cons] at hd
    rw [values_cons]
    rcases List.mem_cons.1 h with e | h
    · cases e
      rw [values_nil_of_not_mem hd.1]
      simp
    · have : ¬ k' = k := fun hk => hd.1 (List.mem_map.2 ⟨_, h, hk.symm⟩)
      simp [this, ih hd.2 h]

theorem entry_one {F : Form} (hd : (F.map Prod.fst).Nodup) {e1 e2 : Str × List Str} (h1 : e1 ∈ F) (h2 : e2 ∈ F) (h : e1.1 = e2.1) : e1 = e2 := by
  obtain ⟨k, vs⟩ := e1
  obtain ⟨k', vs'⟩ := e2
  cases h
  rw [← entry_values hd h1, ← entry_values hd h2]

theorem cut_at {c : UInt8} {a a' b b' : Str} (h : a ++ c :: b = a' ++ c :: b') (h1 : c ∉ a) (h2 : c ∉ a') : a = a' ∧ b = b' := by
  induction a generalizing a' with
  | nil =>
    cases a' with
    | nil => simpa using h
    | cons x a' => simp at h; exact absurd (by simp [h.1]) h2
  | cons x a ih =>
    cases a' with
    | nil => simp at h; exact absurd (by simp [h.1]) h1
    | cons y a' =>
      simp only [List.cons_append, List.cons.injEq] at h
      obtain ⟨e1, e2⟩ := ih h.2 (fun hc => h1 (by simp [hc])) (fun hc => h2 (by simp [hc]))
      exact ⟨by rw [h.1, e1], e2⟩

theorem sent_files {name key k : Str} (hk : rbrack ∉ k) (h : Files name key (name ++ b!"[" ++ k ++ b!"]")) : key = k := by
  obtain ⟨rest, h1, _, _, h2, h3⟩ := h
  have h1 : name ++ lbrack :: (k ++ rbrack :: []) = name ++ lbrack :: (key ++ rbrack :: rest) := by
    simpa [lbrack, rbrack] using h1
  have := (cut_at h1 h2 h2).2
  exact ((cut_at this hk h3).1).symm

theorem trimmed_self {s t : Str} (h : Trimmed s t) : Trimmed t t := by
  obtain ⟨_, _, _, _, _, h⟩ := h
  exact ⟨[], [], .nil, .nil, by simp, h⟩

theorem valuesIn_mem {α : Type} {ps : List (Str × α)} {k : Str} {v : α} : v ∈ valuesIn ps k ↔ (k, v) ∈ ps := by
  unfold valuesIn
  rw [List.mem_map]
  constructor
  · rintro ⟨p, h, rfl⟩
    obtain ⟨h1, h2⟩ := List.mem_filter.1 h
    rw [beq_iff_eq] at h2
    rw [← h2]
    exact h1
  · exact fun h => ⟨_, List.mem_filter.2 ⟨h, by simp⟩, rfl⟩

/-- the pairs of a form that are filed under the name are those of the map -/
theorem map_sources {F : Form} (hd : (F.map Prod.fst).Nodup) (hfill : ∀ e ∈ F, e.2 ≠ []) {name : Str} {before after es : List (Str × Str)}
    (hother : ∀ p ∈ before ++ after, OffMap name p) (hv : ∀ k, values F k = valuesIn (before ++ mapPairs name es ++ after) k)
    {k : Str} {vs : List Str} {key : Str} (h : (k, vs) ∈ F) (hf : Files name key k) :
    (∃ e ∈ es, k = name ++ b!"[" ++ e.1 ++ b!"]") ∧ ∀ v ∈ vs, ∃ e ∈ es, k = name ++ b!"[" ++ e.1 ++ b!"]" ∧ e.2 = v := by
  have hall : ∀ v ∈ vs, ∃ e ∈ es, k = name ++ b!"[" ++ e.1 ++ b!"]" ∧ e.2 = v := by
    intro v hvs
    have : v ∈ valuesIn (before ++ mapPairs name es ++ after) k := by rw [← hv, entry_values hd h]; exact hvs
    rw [valuesIn_mem] at this
    simp only [List.mem_append] at this
    rcases this with (h1 | h1) | h1
    · exact absurd hf (hother (k, v) (by simp [h1]) key)
    · obtain ⟨e, he, h2⟩ := List.mem_map.1 h1
      cases h2
      exact ⟨e, he, rfl, rfl⟩
    · exact absurd hf (hother (k, v) (by simp [h1]) key)
  refine ⟨?_, hall⟩
  cases vs with
  | nil => exact absurd rfl (hfill _ h)
  | cons v vs =>
    obtain ⟨e, he, h1, _⟩ := hall v (by simp)
    exact ⟨e, he, h1⟩

/-- **C149 (partial).** A client sends the entries of a map, among other pairs: `QueryMap` gives the keys of the map and no others, and under
each key its value without the white space around it. Missing: empty names and keys, and brackets in them. -/
theorem C149_partial {F : Form} (hd : (F.map Prod.fst).Nodup) (hfill : ∀ e ∈ F, e.2 ≠ []) {name : Str} {before after es : List (Str × Str)}
    (hes : (es.map Prod.fst).Nodup) (hother : ∀ p ∈ before ++ after, OffMap name p)
    (hv : ∀ k, values F k = valuesIn (before ++ mapPairs name es ++ after) k)
    (hsafe : ∀ e ∈ es, name ≠ [] ∧ e.1 ≠ [] ∧ lbrack ∉ name ∧ rbrack ∉ e.1) :
    ∃ m, F.queryMap name = .ok m ∧ (∀ k, k ∉ es.map Prod.fst → m k = none) ∧ ∀ e ∈ es, ∃ t, m e.1 = some t ∧ Trimmed e.2 t := by
  have hsent : ∀ e ∈ es, ∃ vs, (name ++ b!"[" ++ e.1 ++ b!"]", vs) ∈ F := by
    intro e he
    by_cases hm : name ++ b!"[" ++ e.1 ++ b!"]" ∈ F.map Prod.fst
    · obtain ⟨x, hx, h1⟩ := List.mem_map.1 hm
      exact ⟨x.2, by rw [← h1]; exact hx⟩
    · have h1 := values_nil_of_not_mem hm
      rw [hv] at h1
      have h2 : e.2 ∈ valuesIn (before ++ mapPairs name es ++ after) (name ++ b!"[" ++ e.1 ++ b!"]") := by
        rw [valuesIn_mem]
        simp only [List.mem_append]
        exact .inl (.inr (List.mem_map.2 ⟨e, he, rfl⟩))
      rw [h1] at h2
      cases h2
  have hkey : ∀ k vs key, (k, vs) ∈ F → Files name key k → (key ∈ es.map Prod.fst) ∧ k = name ++ b!"[" ++ key ++ b!"]" ∧
      ∀ v ∈ vs, (key, v) ∈ es := by
    intro k vs key h hf
    obtain ⟨⟨e, he, h1⟩, h2⟩ := map_sources hd hfill hother hv h hf
    have h3 : key = e.1 := sent_files (hsafe e he).2.2.2 (h1 ▸ hf)
    refine ⟨h3 ▸ List.mem_map_of_mem he, h3 ▸ h1, fun v hvs => ?_⟩
    obtain ⟨e', he', h4, h5⟩ := h2 v hvs
    have h6 : key = e'.1 := sent_files (hsafe e' he').2.2.2 (h4 ▸ hf)
    rw [h6, ← h5]
    exact he'
  obtain ⟨m, hm, h1, h2⟩ := C42_query_map_partial (f := F) (name := name) (fun k vs key h _ => hfill _ h)
    (by
      intro e1 he1 e2 he2 key f1 f2
      refine entry_one hd he1 he2 ?_
      rw [(hkey e1.1 e1.2 key he1 f1).2.1, (hkey e2.1 e2.2 key he2 f2).2.1])
  refine ⟨m, hm, fun key hk => ?_, fun e he => ?_⟩
  · cases hmk : m key with
    | none => rfl
    | some t =>
      obtain ⟨e, he, hf⟩ := (h1 key).1 (by rw [hmk]; simp)
      exact absurd (hkey e.1 e.2 key he hf).1 hk
  · obtain ⟨a1, a2, a3, a4⟩ := hsafe _ he
    obtain ⟨vs, hin⟩ := hsent _ he
    have hf : Files name e.1 (name ++ b!"[" ++ e.1 ++ b!"]") := ⟨[], by simp [lbrack, rbrack], a1, a2, a3, a4⟩
    cases vs with
    | nil => exact absurd rfl (hfill _ hin)
    | cons v' vs =>
      obtain ⟨t, h3, h4⟩ := h2 e.1 _ v' vs hin hf
      have h5 := asMap_mem hes ((hkey _ _ e.1 hin hf).2.2 v' (by simp))
      have h6 := asMap_mem hes he
      rw [h6] at h5
      cases h5
      exact ⟨t, h3, h4⟩

/-- **C149 (partial), exactly.** `QueryMap` gives the map back if and only if `name[key]=value` can hold every entry; and then
`DefaultQueryMap` gives it too, but the default for the map without entries. -/
theorem C149_exact_partial {F : Form} (hd : (F.map Prod.fst).Nodup) (hfill : ∀ e ∈ F, e.2 ≠ []) {name : Str} {before after es : List (Str × Str)}
    (hes : (es.map Prod.fst).Nodup) (hother : ∀ p ∈ before ++ after, OffMap name p)
    (hv : ∀ k, values F k = valuesIn (before ++ mapPairs name es ++ after) k) :
    (F.queryMap name = .ok (asMap es) ↔ ∀ e ∈ es, EntrySafe name e) ∧
    ∀ dflt, F.queryMap name = .ok (asMap es) → F.defaultQueryMap name dflt = .ok (if es = [] then dflt else asMap es) := by
  refine ⟨⟨fun h e he => ?_, fun hsafe => ?_⟩, fun dflt h => ?_⟩
  · obtain ⟨k, v, vs, h1, h2, h3⟩ := (C42_sources h).1 e.1 e.2 (asMap_mem hes he)
    obtain ⟨_, _, a1, a2, a3, a4⟩ := h2
    exact ⟨a1, a2, a3, a4, trimmed_self h3⟩
  · obtain ⟨m, hm, h1, h2⟩ := C149_partial hd hfill hes hother hv (fun e he => ⟨(hsafe e he).1, (hsafe e he).2.1, (hsafe e he).2.2.1, (hsafe e he).2.2.2.1⟩)
    rw [hm]
    congr 1
    funext key
    cases hk : asMap es key with
    | some v =>
      have he := asMap_some hk
      obtain ⟨t, h3, h4⟩ := h2 _ he
      rw [h3, trimmed_unique h4, ← trimmed_unique (hsafe _ he).2.2.2.2]
    | none =>
      refine h1 key (fun hin => ?_)
      obtain ⟨x, hx, h3⟩ := List.mem_map.1 hin
      have := asMap_mem hes hx
      rw [h3, hk] at this
      cases this
  · by_cases he : es = []
    · rw [if_pos he]
      refine (C42_sources h).2.2.2 dflt ?_
      rintro ⟨e, hin, key, hf⟩
      obtain ⟨⟨x, hx, _⟩, _⟩ := map_sources hd hfill hother hv hin hf
      rw [he] at hx
      cases hx
    · rw [if_neg he]
      obtain ⟨e, he⟩ := List.exists_mem_of_ne_nil _ he
      obtain ⟨k, v, vs, h1, h2, _⟩ := (C42_sources h).1 e.1 e.2 (asMap_mem hes he)
      exact (C42_sources h).2.2.1 dflt ⟨_, h1, e.1, h2⟩

/-- **C149 (partial), in a request.** The pairs are written into the query string of a request without a form in its body; the first accessor
of the handlers reads a form from which `QueryMap` gives the map back, if and only if `name[key]=value` can hold every entry. -/
theorem C149_query_partial {m : Mime} {o : Oracle} (ho : o.parse = parseRequest m) {req : Req} (hm : ¬ FormMethod req) {name : Str}
    {before after es : List (Str × Str)} (hes : (es.map Prod.fst).Nodup) (hother : ∀ p ∈ before ++ after, OffMap name p)
    (hq : req.rawQuery = encodeForm (before ++ mapPairs name es ++ after)) (s : St ω) (hs : s.ctx.parsedParams = false) (f : Form → Res) :
    ∃ F s', doCall o req s (.readForm f) = (.ok (f F), s') ∧ s'.form = F ∧
      (F.queryMap name = .ok (asMap es) ↔ ∀ e ∈ es, EntrySafe name e) := by
  have hQ : Query req.rawQuery (before ++ mapPairs name es ++ after) := by rw [hq]; exact C79_encode _
  obtain ⟨F, s', h1, h2, _, _, _, h3, h4⟩ := C79_first (m := m) ho hm hQ s hs f
  refine ⟨F, s', h1, h2, (C149_exact_partial h3 ?_ hes hother h4).1⟩
  obtain ⟨_, h5, _⟩ := first_read o req s f hs
  rw [ho, plain_of_method hm] at h5
  simp only [parseRequest, Bool.false_eq_true, if_false] at h5
  rw [h1] at h5
  rw [← h2]
  show ∀ e ∈ s'.form, e.2 ≠ []
  rw [show s'.form = _ from h5, (parsePlain_none (fun d hd => hm hd.1)).1]
  exact copyValues_filled _ (by simp) (parseQuery_filled _)

/-- C149 without the conditions is false: a bracket in a key cuts it short, and white space around a value is lost. -/
theorem C149_refuted : (∃ (F : Form) (mp : Map Str Str), (∀ k, values F k = valuesIn (mapPairs b!"ids" [(b!"a]b", b!"1")]) k) ∧ F.queryMap b!"ids" = .ok mp ∧
      mp b!"a]b" = none ∧ mp b!"a" = some b!"1") ∧
    ∃ (F : Form) (mp : Map Str Str), (∀ k, values F k = valuesIn (mapPairs b!"ids" [(b!"a", b!" 1")]) k) ∧ F.queryMap b!"ids" = .ok mp ∧ mp b!"a" = some b!"1" := by
  refine ⟨⟨[(b!"ids[a]b]", [b!"1"])], _, fun k => ?_, rfl, by decide +kernel, by decide +kernel⟩, ⟨[(b!"ids[a]", [b!" 1"])], _, fun k => ?_, rfl, by decide +kernel⟩⟩
  · rw [values_cons]
    show (if b!"ids[a]b]" = k then _ else _) ++ [] = List.map Prod.snd (List.filter _ [(b!"ids[a]b]", b!"1")])
    by_cases h : b!"ids[a]b]" = k <;> simp [h]
  · rw [values_cons]
    show (if b!"ids[a]" = k then _ else _) ++ [] = List.map Prod.snd (List.filter _ [(b!"ids[a]", b!" 1")])
    by_cases h : b!"ids[a]" = k <;> simp [h]

open Demo in
/-- Beside the theorems: two entries among other pairs, some of which look alike. -/
theorem Demo.C149_demo : encodeForm ([(b!"id", b!"7")] ++ mapPairs b!"ids" [(b!"a", b!"x y"), (b!"b[", [])] ++ [(b!"ids[]", b!"3")]) =
      b!"id=7&ids%5Ba%5D=x+y&ids%5Bb%5B%5D=&ids%5B%5D=3" ∧
    (∀ e ∈ [(b!"a", b!"x y"), (b!"b[", [])], EntrySafe b!"ids" e) ∧
    (∀ p ∈ [(b!"id", b!"7")] ++ [(b!"ids[]", b!"3")], OffMap b!"ids" p) := by
  refine ⟨by decide +kernel, ?_, ?_⟩
  · intro e he
    have ht : ∀ e ∈ [(b!"a", b!"x y"), (b!"b[", [])], trimSpace e.2 = e.2 := by decide +kernel
    have hk : ∀ e ∈ [(b!"a", b!"x y"), (b!"b[", [])], b!"ids" ≠ [] ∧ e.1 ≠ [] ∧ lbrack ∉ b!"ids" ∧ rbrack ∉ e.1 := by decide +kernel
    obtain ⟨a1, a2, a3, a4⟩ := hk e he
    have := trimSpace_trimmed e.2
    rw [ht e he] at this
    exact ⟨a1, a2, a3, a4, this⟩
  · intro p hp key hf
    have hk : ∀ p ∈ [(b!"id", b!"7")] ++ [(b!"ids[]", b!"3")], mapKey b!"ids" p.1 = none := by decide +kernel
    have h := hk p hp
    rw [mapKey_iff.2 hf] at h
    cases h

end Water
