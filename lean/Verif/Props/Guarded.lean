import Verif.Spec.Guarded
import Verif.Props.Guard
import Verif.Props.Opaque
/- C119: what is behind a guard has no influence on the requests it refuses. -/
namespace Water
open Spec Demo
variable {α ω : Type}

theorem Spec.Lineage.upto {ms : List (Made α)} {i : Nat} {l : List Nat} (h : Lineage ms i l) :
    ∀ l1 k l2, l = l1 ++ k :: l2 → Lineage ms k (l1 ++ [k]) := by
  induction h with
  | @root i c h1 h2 =>
    intro l1 k l2 he
    cases l1 with
    | nil => simp at he; obtain ⟨rfl, rfl⟩ := he; exact .root h1 h2
    | cons x xs => simp at he
  | @child i p c l0 h1 h2 h3 ih =>
    intro l1 k l2 he
    rcases List.eq_nil_or_concat l2 with rfl | ⟨l3, x, rfl⟩
    · have := List.append_inj' he (by simp)
      obtain ⟨rfl, h5⟩ := this
      obtain rfl : i = k := by simpa using h5
      exact .child h1 h2 h3
    · rw [List.concat_eq_append] at he
      have : l0 ++ [i] = (l1 ++ k :: l3) ++ [x] := by rw [he]; simp
      exact ih l1 k l3 (List.append_inj' this (by simp)).1

/-- The core: two engines with the same places, filled alike up to the guard at the place `a` of the chain that answers. -/
theorem serve_behind {f g : α → Prog ω} (rx : Regex) (o : Oracle) {P : St ω → Prop} {e : Engine α} {req : Req} (hP : Lasting o req P)
    {A B : List α} {a : α} (hL : answering rx e req = A ++ a :: B) (hA : ∀ b ∈ A, f b = g b) (ha : f a = g a)
    (hs : ∀ b ∈ A, Single (f b)) (hg : Refuses o req P (f a)) (c : Ctx ω) (rw_ : Writer) (body : Option Str) (w : ω)
    (h0 : ∀ i, methodIndex req.method = some i →
      P (startSt c [] ((lookup rx e i req.path).1.map (·.uri)) (lookup rx e i req.path).2 rw_ body w)) :
    SameServed (serve rx o (e.map f) c req rw_ body w) (serve rx o (e.map g) c req rw_ body w) ∧
    (∀ k ∈ starts (serve rx o (e.map f) c req rw_ body w).trace, k ≤ A.length) := by
  by_cases hgate : Gated req
  · have hg' := (gate_iff req).2 hgate
    simp only [serve]
    rw [if_pos hg', if_pos hg']
    exact ⟨⟨rfl, rfl, rfl, rfl, rfl, rfl⟩, fun k hk => by simp [starts] at hk⟩
  · cases hi : methodIndex req.method with
    | none =>
      have hg' := mt (gate_iff req).1 hgate
      simp only [serve, hi]
      rw [if_neg hg']
      exact ⟨⟨rfl, rfl, rfl, rfl, rfl, rfl⟩, fun k hk => by simp [starts] at hk⟩
    | some i =>
      have h0 := h0 i hi
      rw [serve_routed hgate hi, serve_routed hgate hi]
      simp only [answering, routeOf, hi] at hL
      simp only [lookup_map]
      revert hL h0
      generalize lookup rx e i req.path = y
      obtain ⟨n, ps⟩ := y
      intro h0 hL
      have hmap : ((A ++ a :: B).map g) = A.map f ++ f a :: B.map g := by
        rw [List.map_append, List.map_cons, ha, List.map_congr_left hA]
      have key : ∀ u : Option Str, u = n.map (·.uri) →
          ∀ nf ng : Option (EndNode (Prog ω)), nf.map (·.uri) = u → ng.map (·.uri) = u →
          chainFor (e.map f) nf = some ((A ++ a :: B).map f) → chainFor (e.map g) ng = some ((A ++ a :: B).map g) →
          SameServed (serveRouted o (e.map f) c req rw_ body w nf ps) (serveRouted o (e.map g) c req rw_ body w ng ps) ∧
          (∀ k ∈ starts (serveRouted o (e.map f) c req rw_ body w nf ps).trace, k ≤ A.length) := by
        intro u hu nf ng hnf hng hcf hcg
        rw [serveRouted_chain hcf, serveRouted_chain hcg, hnf, hng]
        have hpre : ∀ h ∈ A.map f, Single h := by
          intro h hh
          obtain ⟨b, hb, rfl⟩ := List.mem_map.1 hh
          exact hs b hb
        have hP0 : P (startSt c ((A ++ a :: B).map f) u ps rw_ body w) := by
          subst hu
          exact hP.1 (startSt c [] (n.map (·.uri)) ps rw_ body w) _ rfl h0
        obtain ⟨r1, r2, r3, r4, _⟩ := C104_refused_partial o req hP hpre hg (startSt c ((A ++ a :: B).map f) u ps rw_ body w)
          ⟨rfl, rfl, rfl⟩ hP0 (by rw [show (startSt c ((A ++ a :: B).map f) u ps rw_ body w).ctx.handlers = (A ++ a :: B).map f from rfl,
            List.map_append, List.map_cons]) (B.map g)
          (startSt c ((A ++ a :: B).map g) u ps rw_ body w) ⟨rfl, rfl, rfl⟩ hmap rfl
        refine ⟨⟨r1.symm, ?_, ?_, ?_, r3.symm, rfl⟩, fun k hk => ?_⟩
        · exact (congrArg St.rw r2).symm
        · exact (congrArg St.world r2).symm
        · exact (congrArg St.forms r2).symm
        · have := r4 k hk
          simpa using this
      cases n with
      | none =>
        have hL : e.noFound = A ++ a :: B := hL
        refine key none rfl none none rfl rfl ?_ ?_
        · simp only [chainFor, Engine.map, hL]; simp
        · simp only [chainFor, Engine.map, hL]; simp
      | some n =>
        have hL : n.handlers = A ++ a :: B := hL
        refine key (some n.uri) rfl (some (n.map f)) (some (n.map g)) rfl rfl ?_ ?_
        · simp only [chainFor, EndNode.map, hL]
        · simp only [chainFor, EndNode.map, hL]

theorem app_ok {rx : Regex} {ops : List (Op α)} {r : Nat} {opts : List (Opt α)} {e : Engine α} (h : app rx ops r opts = .ok e) :
    ∃ heap, runOps [] ops = .ok heap ∧ handler rx heap r opts = .ok e := by
  simp only [app] at h
  cases h1 : runOps [] ops with
  | error p => rw [h1] at h; cases h
  | ok heap => rw [h1] at h; exact ⟨heap, rfl, h⟩

theorem app_noFound {rx : Regex} {ops : List (Op α)} {r : Nat} {opts : List (Opt α)} {e : Engine α} (h : app rx ops r opts = .ok e) :
    e.noFound.map some = (noFoundOf ops r opts).map payload := by
  obtain ⟨heap, h1, he⟩ := app_ok h
  obtain ⟨_, es, _, _, _, h5, _, _, _, hm⟩ := handler_ok h1 he
  rw [(mkEngine_inv hm).2.2.1]
  exact (payload_all h5).symm

theorem agree_of_map {β : Type} {f g : α → β} {hs : List (HVal α)} (h : AgreeOn f g hs) {l : List α} (hl : l.map some = hs.map payload) :
    ∀ a ∈ l, f a = g a := by
  intro a ha
  have : some a ∈ hs.map payload := by rw [← hl]; exact List.mem_map_of_mem ha
  obtain ⟨x, hx, hp⟩ := List.mem_map.1 this
  exact h x hx a hp

theorem single_of_map {f : α → Prog ω} {hs : List (HVal α)} (h : SingleOn f hs) {l : List α} (hl : l.map some = hs.map payload) :
    ∀ a ∈ l, Single (f a) := by
  intro a ha
  have : some a ∈ hs.map payload := by rw [← hl]; exact List.mem_map_of_mem ha
  obtain ⟨x, hx, hp⟩ := List.mem_map.1 this
  exact h x hx a hp

/-- a list of handlers cut where the arguments are cut -/
theorem payload_cut {l : List α} {pre post : List (HVal α)} {x : HVal α} {a : α} (h : l.map some = (pre ++ x :: post).map payload)
    (hx : payload x = some a) : ∃ A B, l = A ++ a :: B ∧ A.map some = pre.map payload ∧ B.map some = post.map payload := by
  rw [List.map_append, List.map_cons, hx] at h
  obtain ⟨A, R, rfl, h1, h2⟩ := List.map_eq_append_iff.1 h
  cases R with
  | nil => simp at h2
  | cons b B =>
    simp only [List.map_cons, List.cons.injEq, Option.some.injEq] at h2
    obtain ⟨rfl, h3⟩ := h2
    exact ⟨A, B, rfl, h1, h3⟩

/-- The chain of an endpoint below a router with the middleware `front ++ x :: rest`, cut at `x`. -/
theorem chain_cut {ops : List (Op α)} {r g : Nat} {above : List Nat} (hu : Under ops r g (above ++ [g])) {front rest : List (HVal α)}
    {x : HVal α} (huse : usesOf ops g = front ++ x :: rest) {i : Nat} {l : List Nat} (hend : Endpoint ops r i l) (hg : g ∈ l) :
    ∃ post, beforesOf ops r ++ l.flatMap (usesOf ops) ++ handlersOf ops i =
      (beforesOf ops r ++ above.flatMap (usesOf ops) ++ front) ++ x :: post := by
  obtain ⟨l1, l2, rfl⟩ := List.append_of_mem hg
  have h1 := hend.1.1.upto l1 g l2 rfl
  have h2 := h1.unique hu.1
  have h3 : l1 = above := (List.append_inj' h2 rfl).1
  subst h3
  refine ⟨rest ++ l2.flatMap (usesOf ops) ++ handlersOf ops i, ?_⟩
  simp [huse, List.append_assoc]

/-- **C119 (hidden, partial).** Take one application with handlers at its places in two ways, `f` and `f'`, that differ only in what is
behind a guard `a` given to the router `g` with `Use`. A request that the guard refuses is served the same in both: it ends alike, with
the same response, the same effects and the same handlers run; whatever path it asks for, and whether the guard was given before the
routes were registered or after. `P` is whatever the refusal depends on that no handler can change, such as the parameters. Missing:
handlers in front of the guard that call `Next` twice, or recover without a response (C104). -/
theorem C119_hidden_partial {f f' : α → Prog ω} (rx : Regex) (o : Oracle) {ops : List (Op α)} {opsf opsf' : List (Op (Prog ω))} {r : Nat}
    {opts : List (Opt α)} {optsf optsf' : List (Opt (Prog ω))} (hf : Each (SameCall f) ops opsf) (hf' : Each (SameCall f') ops opsf')
    (hof : Each (SameOpt f) opts optsf) (hof' : Each (SameOpt f') opts optsf') {e : Engine α} {ef ef' : Engine (Prog ω)}
    (he : app rx ops r opts = .ok e) (hef : app rx opsf r optsf = .ok ef) (hef' : app rx opsf' r optsf' = .ok ef')
    {g : Nat} {above : List Nat} (hu : Under ops r g (above ++ [g])) {front rest : List (HVal α)} {x : HVal α} {a : α}
    (huse : usesOf ops g = front ++ x :: rest) (hx : payload x = some a) (ha : f a = f' a) (hbut : SameBut f f' ops r g front opts)
    (hsing : SingleOn f (beforesOf ops r ++ above.flatMap (usesOf ops) ++ front)) {req : Req} {P : St ω → Prop} (hP : Lasting o req P)
    (hg : Refuses o req P (f a)) (c : Ctx ω) (rw_ : Writer) (body : Option Str) (w : ω)
    (h0 : ∀ i, methodIndex req.method = some i →
      P (startSt c [] ((lookup rx e i req.path).1.map (·.uri)) (lookup rx e i req.path).2 rw_ body w)) :
    SameServed (serve rx o ef c req rw_ body w) (serve rx o ef' c req rw_ body w) := by
  have same : (∀ b ∈ answering rx e req, f b = f' b) →
      SameServed (serve rx o ef c req rw_ body w) (serve rx o ef' c req rw_ body w) := by
    intro h
    rw [C112_answers rx o hf hf' hof hof' he hef hef' c req rw_ body w h]
    exact ⟨rfl, rfl, rfl, rfl, rfl, rfl⟩
  obtain ⟨heap, hrun, hhan⟩ := app_ok he
  cases hr : routeOf rx e req.method req.path with
  | none =>
    apply same
    simp only [answering, hr]
    exact agree_of_map hbut.noFound (app_noFound he)
  | some n =>
    obtain ⟨i, l, hend, -, hh, -⟩ := C17_chain hrun hhan hr
    by_cases hgl : g ∈ l
    · obtain ⟨post, hcut⟩ := chain_cut hu huse hend hgl
      rw [hcut] at hh
      obtain ⟨A, B, hAB, hA, -⟩ := payload_cut hh hx
      have hagree : ∀ b ∈ A, f b = f' b := by
        refine agree_of_map (hs := beforesOf ops r ++ above.flatMap (usesOf ops) ++ front) ?_ hA
        intro h hmem b hb
        simp only [List.mem_append, List.mem_flatMap] at hmem
        rcases hmem with (hmm | ⟨j, hj, hmm⟩) | hmm
        · exact hbut.befores h hmm b hb
        · obtain ⟨l1, l2, rfl⟩ := List.append_of_mem hj
          have hlin := hu.1.upto l1 j (l2 ++ [g]) (by simp)
          refine hbut.uses j (l1 ++ [j]) ⟨hlin, ?_⟩ ?_ h hmm b hb
          · have := hu.2
            cases l1 with
            | nil => simpa using this
            | cons y ys => simpa using this
          · intro hmem
            obtain ⟨m1, m2, hm⟩ := List.append_of_mem hmem
            have := (hlin.upto m1 g m2 hm).unique hu.1
            have h5 := congrArg List.length this
            have h6 := congrArg List.length hm
            simp at h5 h6
            omega
        · exact hbut.front h hmm b hb
      rw [app_each rx hf r hof, he] at hef
      rw [app_each rx hf' r hof', he] at hef'
      cases hef
      cases hef'
      exact (serve_behind rx o hP (by simp only [answering, hr]; exact hAB) hagree ha (single_of_map hsing hA) hg c rw_ body w h0).1
    · apply same
      simp only [answering, hr]
      refine agree_of_map ?_ hh
      intro h hmem b hb
      simp only [List.mem_append, List.mem_flatMap] at hmem
      rcases hmem with (hmm | ⟨j, hj, hmm⟩) | hmm
      · exact hbut.befores h hmm b hb
      · obtain ⟨l1, l2, rfl⟩ := List.append_of_mem hj
        refine hbut.uses j (l1 ++ [j]) ⟨hend.1.1.upto l1 j l2 rfl, ?_⟩ ?_ h hmm b hb
        · have := hend.1.2
          cases l1 with
          | nil => simpa using this
          | cons y ys => simpa using this
        · intro hmem
          apply hgl
          simp only [List.mem_append, List.mem_cons, List.not_mem_nil, or_false] at hmem ⊢
          rcases hmem with h | h
          · exact .inl h
          · exact .inr (.inl h)
      · exact hbut.endpoints i l hend hgl h hmm b hb

/-- **C119 (everything, partial).** A guard given to the root with `Before` is in front of everything: two applications that agree on it and
on the `Before` handlers in front of it serve every request that it refuses the same, whatever their other handlers are, also those for
paths that do not exist. -/
theorem C119_before_partial {f f' : α → Prog ω} (rx : Regex) (o : Oracle) {ops : List (Op α)} {opsf opsf' : List (Op (Prog ω))} {r : Nat}
    {opts : List (Opt α)} {optsf optsf' : List (Opt (Prog ω))} (hf : Each (SameCall f) ops opsf) (hf' : Each (SameCall f') ops opsf')
    (hof : Each (SameOpt f) opts optsf) (hof' : Each (SameOpt f') opts optsf') {e : Engine α} {ef ef' : Engine (Prog ω)}
    (he : app rx ops r opts = .ok e) (hef : app rx opsf r optsf = .ok ef) (hef' : app rx opsf' r optsf' = .ok ef')
    {front rest : List (HVal α)} {x : HVal α} {a : α} (hbef : beforesOf ops r = front ++ x :: rest) (hx : payload x = some a)
    (ha : f a = f' a) (hfront : AgreeOn f f' front) (hsing : SingleOn f front) {req : Req} {P : St ω → Prop} (hP : Lasting o req P)
    (hg : Refuses o req P (f a)) (c : Ctx ω) (rw_ : Writer) (body : Option Str) (w : ω)
    (h0 : ∀ i, methodIndex req.method = some i →
      P (startSt c [] ((lookup rx e i req.path).1.map (·.uri)) (lookup rx e i req.path).2 rw_ body w)) :
    SameServed (serve rx o ef c req rw_ body w) (serve rx o ef' c req rw_ body w) ∧
    ∀ k ∈ starts (serve rx o ef c req rw_ body w).trace, k ≤ front.length := by
  obtain ⟨heap, hrun, hhan⟩ := app_ok he
  have hcut : (answering rx e req = [] ∧ routeOf rx e req.method req.path = none) ∨ ∃ A B, answering rx e req = A ++ a :: B ∧
      A.map some = front.map payload := by
    cases hr : routeOf rx e req.method req.path with
    | none =>
      have hn := app_noFound he
      simp only [noFoundOf] at hn
      cases hgv : noFoundGiven opts with
      | none =>
        rw [hgv] at hn
        left
        simp only [answering, hr]
        exact ⟨by simpa using hn, trivial⟩
      | some gv =>
        rw [hgv, hbef] at hn
        simp only [List.append_assoc, List.cons_append] at hn
        obtain ⟨A, B, h1, h2, -⟩ := payload_cut hn hx
        right
        simp only [answering, hr]
        exact ⟨A, B, h1, h2⟩
    | some n =>
      obtain ⟨i, l, hend, -, hh, -⟩ := C17_chain hrun hhan hr
      rw [hbef] at hh
      simp only [List.append_assoc, List.cons_append] at hh
      obtain ⟨A, B, h1, h2, -⟩ := payload_cut hh hx
      right
      simp only [answering, hr]
      exact ⟨A, B, h1, h2⟩
  rcases hcut with ⟨hnil, hnone⟩ | ⟨A, B, hAB, hA⟩
  · have hsame := C112_answers rx o hf hf' hof hof' he hef hef' c req rw_ body w (by rw [hnil]; simp)
    rw [hsame]
    refine ⟨⟨rfl, rfl, rfl, rfl, rfl, rfl⟩, ?_⟩
    rw [← hsame]
    rw [app_each rx hf r hof, he] at hef
    cases hef
    have hnf : e.noFound = [] := by simpa [answering, hnone] using hnil
    intro k hk
    exfalso
    simp only [serve] at hk
    split at hk
    · simp [starts] at hk
    · cases hi : methodIndex req.method with
      | none => rw [hi] at hk; simp [starts] at hk
      | some i =>
        simp only [routeOf, hi] at hnone
        rw [hi] at hk
        simp only [lookup_map, hnone] at hk
        obtain ⟨cx, hs⟩ := serveRouted_none (o := o) (e := e.map f) (c := c) (req := req) (rw := rw_) (body := body) (w := w)
          (n := none) (params := (lookup rx e i req.path).2) (by simp [chainFor, Engine.map, hnf])
        simp only [Option.map_none] at hk
        rw [hs] at hk
        simp [starts] at hk
  · rw [app_each rx hf r hof, he] at hef
    rw [app_each rx hf' r hof', he] at hef'
    cases hef
    cases hef'
    obtain ⟨h1, h2⟩ := serve_behind rx o hP hAB (agree_of_map hfront hA) ha (single_of_map hsing hA) hg c rw_ body w h0
    refine ⟨h1, fun k hk => ?_⟩
    have := h2 k hk
    have hl := congrArg List.length hA
    simp at hl
    omega

/-- **C119 (guarded, partial).** A request that goes to an endpoint below the router `g` and is refused by a guard of it: only the handlers
up to the guard run, which are the `Before` handlers of the root, the middleware of the routers above `g` and the middleware that `g` was
given before the guard; none of the endpoint. -/
theorem C119_guarded_partial {rx : Regex} {o : Oracle} {ops : List (Op (Prog ω))} {heap : Heap (Prog ω)} (h : runOps [] ops = .ok heap)
    {r : Nat} {opts : List (Opt (Prog ω))} {e : Engine (Prog ω)} (he : handler rx heap r opts = .ok e) {req : Req} (hr : Routed req)
    {n : EndNode (Prog ω)} (hn : routeOf rx e req.method req.path = some n) {g : Nat} {above : List Nat}
    (hu : Under ops r g (above ++ [g])) {front rest : List (HVal (Prog ω))} {x : HVal (Prog ω)} {guard : Prog ω}
    (huse : usesOf ops g = front ++ x :: rest) (hx : payload x = some guard)
    (hsing : SingleOn id (beforesOf ops r ++ above.flatMap (usesOf ops) ++ front)) (hg : Refuses o req (fun _ => True) guard)
    (c : Ctx ω) (rw_ : Writer) (body : Option Str) (w : ω) :
    ∃ i l, Endpoint ops r i l ∧ methodOf ops i = req.method ∧
      n.handlers.map some = (beforesOf ops r ++ l.flatMap (usesOf ops) ++ handlersOf ops i).map payload ∧
      (staticOf opts = false → Accepts rx (routeSegs (fullPath ops l)) (pathSegs req.path)) ∧
      (g ∈ l → ∀ k ∈ starts (serve rx o e c req rw_ body w).trace,
        k ≤ (beforesOf ops r ++ above.flatMap (usesOf ops) ++ front).length) := by
  obtain ⟨i, l, hend, hm, hh, hacc⟩ := C17_chain h he hn
  refine ⟨i, l, hend, hm, hh, ?_, ?_⟩
  · intro hs
    rcases hacc with hacc | ⟨hs', -⟩
    · exact hacc
    · rw [hs] at hs'; cases hs'
  · intro hgl k hk
    obtain ⟨post, hcut⟩ := chain_cut hu huse hend hgl
    rw [hcut] at hh
    obtain ⟨A, B, hAB, hA, -⟩ := payload_cut hh hx
    have := C104_served_partial hr hn hAB (fun b hb => single_of_map hsing hA b hb) hg c rw_ body w k hk
    have hl := congrArg List.length hA
    simp only [List.length_map] at hl
    omega

/-- **C119 (paths, partial).** A path that no endpoint outside of `g` accepts is guarded: if the guard refuses the request, no handler of
any endpoint runs. -/
theorem C119_paths_partial {rx : Regex} {o : Oracle} {ops : List (Op (Prog ω))} {heap : Heap (Prog ω)} (h : runOps [] ops = .ok heap)
    {r : Nat} {opts : List (Opt (Prog ω))} (hst : staticOf opts = false) {e : Engine (Prog ω)} (he : handler rx heap r opts = .ok e)
    {req : Req} (hr : Routed req) {n : EndNode (Prog ω)} (hn : routeOf rx e req.method req.path = some n) {g : Nat} {above : List Nat}
    (hu : Under ops r g (above ++ [g]))
    (honly : ∀ i l, Endpoint ops r i l → methodOf ops i = req.method → Accepts rx (routeSegs (fullPath ops l)) (pathSegs req.path) → g ∈ l)
    {front rest : List (HVal (Prog ω))} {x : HVal (Prog ω)} {guard : Prog ω}
    (huse : usesOf ops g = front ++ x :: rest) (hx : payload x = some guard)
    (hsing : SingleOn id (beforesOf ops r ++ above.flatMap (usesOf ops) ++ front)) (hg : Refuses o req (fun _ => True) guard)
    (c : Ctx ω) (rw_ : Writer) (body : Option Str) (w : ω) :
    ∀ k ∈ starts (serve rx o e c req rw_ body w).trace, k ≤ (beforesOf ops r ++ above.flatMap (usesOf ops) ++ front).length := by
  obtain ⟨i, l, hend, hm, -, hacc, hk⟩ := C119_guarded_partial h he hr hn hu huse hx hsing hg c rw_ body w
  exact hk (honly i l hend hm (hacc hst))

/-! ### cases -/

namespace Demo

/-- a group with a guard that is given to it after its route was registered, and a route outside of the group -/
def adminOps {β : Type} (f : Nat → β) : List (Op β) :=
  [.newRouter, .use 0 [.handler (f 0)], .group 0 b!"/admin", .handle 1 b!"GET" b!"/users" [.ctxFunc (f 2)], .use 1 [.ctxFunc (f 1)],
   .handle 0 b!"GET" b!"/<page>/<tab>" [.handler (f 3)]]

/-- place 0: Recovery, 1: the guard, 2 and 3: handlers of routes -/
def adminH (users tabs : Prog Unit) : Nat → Prog Unit
  | 0 => recovery chainO
  | 1 => gateH
  | 2 => users
  | _ => tabs

theorem admin_same (f : Nat → Prog Unit) : Each (SameCall f) (adminOps id) (adminOps f) :=
  .cons .newRouter (.cons (.use (.cons (.val (.handler _) (.handler _)) .nil)) (.cons .group
    (.cons (.handle (.cons (.val (.ctxFunc _) (.ctxFunc _)) .nil)) (.cons (.use (.cons (.val (.ctxFunc _) (.ctxFunc _)) .nil))
      (.cons (.handle (.cons (.val (.handler _) (.handler _)) .nil)) .nil)))))

/-- a GET request without an Authorization header -/
def adminReq (path : Str) : Req := { chainReq with path }

/-- what the client receives, and which handlers ran -/
def adminAnswer (f : Nat → Prog Unit) (path : Str) : Option (Option Int × List Nat) :=
  match app rx (adminOps f) 0 [] with
  | .ok e =>
    let s := serve rx chainO e Ctx.new (adminReq path) Writer.new none ()
    some (received s.rw.log, starts s.trace)
  | .error _ => none

theorem admin_answers {f : Nat → Prog Unit} {e : Engine (Prog Unit)} (he : app rx (adminOps f) 0 [] = .ok e) {path : Str} :
    adminAnswer f path = some (received (serve rx chainO e Ctx.new (adminReq path) Writer.new none ()).rw.log,
      starts (serve rx chainO e Ctx.new (adminReq path) Writer.new none ()).trace) := by
  unfold adminAnswer
  rw [he]

theorem admin_lineage : Under (adminOps (id : Nat → Nat)) 0 1 ([0] ++ [1]) := by
  refine ⟨.child (c := ⟨some 0, [], b!"/admin", []⟩) (p := 0) rfl rfl (.root (c := ⟨none, [], [], []⟩) rfl rfl), rfl⟩

end Demo

/-- the hypotheses of `C119_hidden_partial` with a late guard: the handler of `/admin/users` may be any at all -/
example (users users' : Prog Unit) : AgreeOn (adminH users writeH) (adminH users' writeH) (beforesOf (adminOps id) 0 ++
      [0].flatMap (usesOf (adminOps id)) ++ ([] : List (HVal Nat))) ∧
    usesOf (adminOps (id : Nat → Nat)) 1 = [] ++ .ctxFunc 1 :: [] ∧
    SingleOn (adminH users writeH) (beforesOf (adminOps id) 0 ++ [0].flatMap (usesOf (adminOps id)) ++ ([] : List (HVal Nat))) ∧
    Refuses chainO (adminReq b!"/admin/users") (fun _ => True) (adminH users writeH 1) := by
  refine ⟨?_, rfl, ?_, gate_refuses _ _ (by decide +kernel)⟩
  · intro h hh a ha
    simp [adminOps, beforesOf, beforesBy, usesOf, usesBy] at hh
    subst hh
    cases ha
    rfl
  · intro h hh a ha
    simp [adminOps, beforesOf, beforesBy, usesOf, usesBy] at hh
    subst hh
    cases ha
    exact single_recovery _

/-- `/admin/users` is refused after Recovery and the guard, whether its handler writes or panics; `/admin/stats` is not in the group, and
is served by the route outside -/
example : adminAnswer (adminH writeH idleH) b!"/admin/users" = some (some 401, [0, 1]) ∧
    adminAnswer (adminH panicH idleH) b!"/admin/users" = some (some 401, [0, 1]) ∧
    adminAnswer (adminH writeH writeH) b!"/admin/stats" = some (some 200, [0, 1]) ∧
    adminAnswer (adminH writeH panicH) b!"/admin/stats" = some (some 500, [0, 1]) := by
  decide +kernel

/-- the claim that a guard on a group guards all paths below the prefix of the group: nothing but the guard and what is in front of it
has an influence on them -/
def C119_claim : Prop :=
  ∀ (rx : Regex) (o : Oracle) (ops : List (Op Nat)) (f f' : Nat → Prog Unit) (opsf opsf' : List (Op (Prog Unit))) (r : Nat)
    (e : Engine Nat) (ef ef' : Engine (Prog Unit)) (g : Nat) (above : List Nat) (front rest : List (HVal Nat)) (x : HVal Nat) (a : Nat)
    (req : Req), Each (SameCall f) ops opsf → Each (SameCall f') ops opsf' → app rx ops r [] = .ok e → app rx opsf r [] = .ok ef →
    app rx opsf' r [] = .ok ef' → Under ops r g (above ++ [g]) → usesOf ops g = front ++ x :: rest → payload x = some a → f a = f' a →
    AgreeOn f f' (beforesOf ops r ++ above.flatMap (usesOf ops) ++ front) →
    SingleOn f (beforesOf ops r ++ above.flatMap (usesOf ops) ++ front) → Refuses o req (fun _ => True) (f a) →
    fullPath ops (above ++ [g]) ++ b!"/" <+: req.path →
    SameServed (serve rx o ef Ctx.new req Writer.new none ()) (serve rx o ef' Ctx.new req Writer.new none ())

/-- C119, as stated, is false: a path below the prefix of a guarded group may be served by a route outside of the group. -/
theorem C119_refuted : ¬ C119_claim := by
  intro h
  have hr : (∃ e, app rx (adminOps (id : Nat → Nat)) 0 [] = .ok e) := by
    cases he : app rx (adminOps (id : Nat → Nat)) 0 [] with
    | ok e => exact ⟨e, rfl⟩
    | error p =>
      exfalso
      have : (match app rx (adminOps (id : Nat → Nat)) 0 [] with | .ok _ => true | .error _ => false) = true := by decide +kernel
      rw [he] at this
      cases this
  obtain ⟨e, he⟩ := hr
  have hall := fun f : Nat → Prog Unit => (C112_construction rx (admin_same f) 0 (.nil : Each (SameOpt f) [] [])).2.2 e he
  obtain ⟨ef, hef, -⟩ := hall (adminH writeH writeH)
  obtain ⟨ef', hef', -⟩ := hall (adminH writeH panicH)
  have := h rx chainO (adminOps id) (adminH writeH writeH) (adminH writeH panicH) _ _ 0 e ef ef' 1 [0] [] [] (.ctxFunc 1) 1
    (adminReq b!"/admin/stats") (admin_same _) (admin_same _) he hef hef' admin_lineage rfl rfl rfl ?_ ?_
    (gate_refuses _ _ (by decide +kernel)) (by decide +kernel)
  · have h1 : adminAnswer (adminH writeH writeH) b!"/admin/stats" = some (some 200, [0, 1]) := by decide +kernel
    have h2 : adminAnswer (adminH writeH panicH) b!"/admin/stats" = some (some 500, [0, 1]) := by decide +kernel
    rw [admin_answers hef] at h1
    rw [admin_answers hef'] at h2
    have h3 := (Prod.mk.inj (Option.some.inj h1)).1
    have h4 := (Prod.mk.inj (Option.some.inj h2)).1
    rw [this.rw, h4] at h3
    exact absurd (Option.some.inj h3) (by decide)
  · intro h hh a ha
    simp [adminOps, beforesOf, beforesBy, usesOf, usesBy] at hh
    subst hh
    cases ha
    rfl
  · intro h hh a ha
    simp [adminOps, beforesOf, beforesBy, usesOf, usesBy] at hh
    subst hh
    cases ha
    exact single_recovery _

end Water
