import Verif.Lemmas.Scripted
import Verif.Props.Concurrent
import Verif.Props.Reference
/-
C108 for requests served at the same time: each of them is answered as the reference server answers it alone.
-/
namespace Water
open Spec Demo
variable {ω : Type}

/-- what the engine looks up is what the reference server serves, whatever running a chain means -/
theorem reference_lookup {rx : Regex} {site : Site ω} {e : Engine (Prog ω)} (h : mkEngine rx site.static site.noFound site.routes = .ok e)
    (c : Ctx ω) {req : Req} (hrt : Routable req) {i : Nat} (hi : methodIndex req.method = some i)
    (chain : Req → List (Prog ω) → St ω → Out × St ω) (rw : Writer) (body : Option Str) (w : ω) :
    Reference rx chain site req c.params rw body w
      (match chainFor e (lookup rx e i req.path).1 with
        | none => statusOnly rw w 404
        | some hs => chainAnswer (chain req hs (fresh ((lookup rx e i req.path).1.map (·.uri))
            (prepare c [] none (lookup rx e i req.path).2).params rw body w)))
      (prepare c [] none (lookup rx e i req.path).2).params := by
  have hsup : Supported req.method := by rw [supported_iff, hi]; rfl
  have hmiss : ¬ Direct site req → ∀ e0, mkEngine rx false site.noFound site.routes = .ok e0 →
      lookup rx e i req.path = lookup rx e0 i req.path →
      Reference rx chain site req c.params rw body w
        (match chainFor e (lookup rx e i req.path).1 with
          | none => statusOnly rw w 404
          | some hs => chainAnswer (chain req hs (fresh ((lookup rx e i req.path).1.map (·.uri))
              (prepare c [] none (lookup rx e i req.path).2).params rw body w)))
        (prepare c [] none (lookup rx e i req.path).2).params := by
    intro hd e0 h0 hl
    rw [hl]
    obtain ⟨ro, hro, _⟩ := C106_picked rx (tableFor req.method site.routes) (pathSegs req.path)
    obtain ⟨q, hq, hh⟩ := lookup_holds h0 hi hro
    have hps : (prepare c [] none (some q)).params = q.getD Map.empty := by cases q <;> rfl
    cases ro with
    | some r =>
      have hro' := hro
      obtain ⟨⟨x, hx, hxr⟩, hacc, _⟩ := hro'
      obtain ⟨v, hv, hvm, rfl⟩ := mem_tableFor.1 hx
      obtain ⟨n, hn⟩ := C02_dispatch_complete h0 hv (path := req.path)
        (by unfold RouteAccepts; rw [show routeSegs v.uri = r from hxr]; exact hacc)
      rw [hvm] at hn
      obtain ⟨r', hb, hf, hu⟩ := (C86_served h0 req.method req.path n.handlers n.uri).1 (by rw [hn]; rfl)
      have hrr : some r = some r' := picked_unique (rx := rx) (tbl := tableFor req.method site.routes) (ss := pathSegs req.path) hro hb
      injection hrr with hrr
      subst hrr
      simp only [routeOf, hi] at hn
      rw [hn, hq, hps]
      exact .found hrt hsup hd hb hf hu hh
    | none =>
      have hno := (C02_not_found_iff h0 req.method req.path).2 (fun v hv hvm ha =>
        hro ⟨routeSegs v.uri, v.handlers, v.uri⟩ (mem_tableFor.2 ⟨v, hv, hvm, rfl⟩) ha)
      simp only [routeOf, hi] at hno
      have hnf : e.noFound = site.noFound := (mkEngine_inv h).2.2.1
      have hh' : ∀ x v, q.getD Map.empty x = some v ↔ Newest rx (tableFor req.method site.routes) (pathSegs req.path) none x v :=
        fun x v => (hh x v).trans (by simp [ParamIs])
      have := Reference.missing (chain := chain) (prev := c.params) (rw := rw) (body := body) (w := w) hrt hsup hd hro hh'
      rw [hno, hq, hps]
      by_cases h0 : site.noFound = []
      · have hc : chainFor e none = none := by unfold chainFor; rw [hnf, h0]; rfl
        rw [if_pos h0] at this
        rw [hc]
        exact this
      · have hc : chainFor e none = some site.noFound := by unfold chainFor; rw [hnf, if_pos (by simpa using h0)]
        rw [if_neg h0] at this
        rw [hc]
        exact this
  cases hst : site.static with
  | false =>
    rw [hst] at h
    exact hmiss (by simp [Direct, hst]) e h rfl
  | true =>
    rw [hst] at h
    obtain ⟨e0, h0⟩ := C13_same_construction.1 ⟨e, h⟩
    rcases lookup_static (path := req.path) h h0 hi with ⟨hat, n, hn, h2, h3⟩ | ⟨hat, hl⟩
    · rw [hn]
      exact .direct hrt hsup ⟨hst, hat⟩ h2 h3
    · exact hmiss (fun hd => hat hd.2) e0 h0 hl

/-- **C108 (many requests at once).** Whatever other requests do in the meantime, and whatever context object a request gets: it is
answered as the reference server answers it alone, in a world that tells it what it was told; and it asks exactly for that. Only under the
static-route option does it matter which parameters an earlier request left (`C108_concurrent_any`). -/
theorem C108_concurrent {rx : Regex} {o : Oracle} (hgood : o.bad 404 = false) {site : Site ω} {e : Engine (Prog ω)}
    (h : mkEngine rx site.static site.noFound site.routes = .ok e) {s : Server ω} (hr : Server.Reach rx o e s) {a : Water.Answer ω}
    (ha : a ∈ s.gone) :
    ∃ prev left, ∀ (rest : List Res) (w : ω),
      Reference rx (aloneWith (driver o) (a.told ++ rest) rest) site a.req prev a.rw₀ a.body₀ w ⟨a.out, a.rw, w, a.forms⟩ left := by
  obtain ⟨t, c', r, ⟨c₀, i, n, h1, h2, h3⟩, h4, h5, rfl⟩ := hr.good.gone a ha
  have hg : ¬ Gated t.req := by
    intro hg
    have := (gate_iff t.req).2 hg
    unfold refused at h1
    rw [h1] at this
    cases this
  have hrt : Routable t.req := by simpa using mt (gated_iff t.req).2 hg
  refine ⟨c₀.params, (prepare c₀ [] none (lookup rx e i t.req.path).2).params, fun rest w => ?_⟩
  have href := reference_lookup h c₀ hrt h2 (aloneWith (driver o) (t.told ++ rest) rest) t.rw₀ t.body₀ w
  have h6 := h3 w rest
  have h8 : t.machine c' w = ⟨.done r, [], ⟨c', t.rw, t.body, t.forms, w, t.trace, t.form⟩⟩ := by
    unfold Thread.machine
    rw [h4, h5]
  rw [h8] at h6
  show Reference rx (aloneWith (driver o) (t.told ++ rest) rest) site t.req c₀.params t.rw₀ t.body₀ w ⟨endOut r, t.rw, w, t.forms⟩ _
  cases hc : chainFor e (lookup rx e i t.req.path).1 with
  | none =>
    rw [hc] at href
    have hend : Machine.start rx o e c₀ t.req i t.rw₀ t.body₀ w = ⟨.done none, [],
        (Machine.start rx o e c₀ t.req i t.rw₀ t.body₀ w).st⟩ ∧
        (Machine.start rx o e c₀ t.req i t.rw₀ t.body₀ w).st.rw = (statusOnly t.rw₀ w 404).rw ∧
        (Machine.start rx o e c₀ t.req i t.rw₀ t.body₀ w).st.forms = [] := by
      unfold Machine.start
      simp only [hc]
      rw [St.writeHeader_fresh (by rfl), Writer.writeHeader_ok hgood]
      exact ⟨rfl, rfl, rfl⟩
    rw [hend.1, replays_done] at h6
    injection h6 with h6 _
    injection h6 with g1 _ g2
    injection g1 with g1
    have g3 := congrArg St.rw g2
    have g4 := congrArg St.forms g2
    dsimp only at g3 g4
    rw [← g3, ← g4, hend.2.1, hend.2.2, ← g1]
    exact href
  | some hs =>
    rw [hc] at href
    have hs1 := replays_script o t.req n (Machine.start rx o e c₀ t.req i t.rw₀ t.body₀ w) (t.told ++ rest)
    rw [h6] at hs1
    have hstart : Machine.start rx o e c₀ t.req i t.rw₀ t.body₀ w =
        ⟨.loop, [], startSt c₀ hs ((lookup rx e i t.req.path).1.map (·.uri)) (lookup rx e i t.req.path).2 t.rw₀ t.body₀ w⟩ := by
      unfold Machine.start
      simp only [hc]
      rfl
    rw [hstart] at hs1
    let S : St (List Res) :=
      { fresh ((lookup rx e i t.req.path).1.map (·.uri)) (prepare c₀ [] none (lookup rx e i t.req.path).2).params t.rw₀ t.body₀
          (t.told ++ rest) with
        ctx := { (fresh ((lookup rx e i t.req.path).1.map (·.uri)) (prepare c₀ [] none (lookup rx e i t.req.path).2).params t.rw₀
          t.body₀ (t.told ++ rest)).ctx with handlers := hs.map scriptProg } }
    have hS : scriptSt (startSt c₀ hs ((lookup rx e i t.req.path).1.map (·.uri)) (lookup rx e i t.req.path).2 t.rw₀ t.body₀ w)
        (t.told ++ rest) = S := rfl
    have hdr : driver o t.req (hs.map scriptProg) (fresh ((lookup rx e i t.req.path).1.map (·.uri))
        (prepare c₀ [] none (lookup rx e i t.req.path).2).params t.rw₀ t.body₀ (t.told ++ rest)) = runAll o t.req S := rfl
    have hne := (runAll_drives o t.req _ S rfl (by exact Nat.zero_le _)).1
    have hrun : runAll o t.req S = (endOut r, scriptSt ⟨c', t.rw, t.body, t.forms, w, t.trace, t.form⟩ rest) := by
      obtain ⟨N, hN⟩ := run_goes o t.req (S.ctx.handlers.length + 1) S [] hne
      have hs2 : Machine.iter o t.req n ⟨.loop, [], S⟩ =
          ⟨.done r, [], scriptSt ⟨c', t.rw, t.body, t.forms, w, t.trace, t.form⟩ rest⟩ := hs1
      unfold runAll at hne ⊢
      rcases hr : run o t.req (S.ctx.handlers.length + 1) S with ⟨out, s1⟩
      rw [hr] at hN hne
      cases out with
      | fuel => exact absurd rfl hne
      | ret =>
        obtain ⟨g1, g2⟩ := iter_ends hs2 hN
        subst g1 g2
        rfl
      | panic v =>
        obtain ⟨g1, g2⟩ := iter_ends hs2 hN
        subst g1 g2
        rfl
    have hal : aloneWith (driver o) (t.told ++ rest) rest t.req hs (fresh ((lookup rx e i t.req.path).1.map (·.uri))
        (prepare c₀ [] none (lookup rx e i t.req.path).2).params t.rw₀ t.body₀ w) =
        (endOut r, { fresh ((lookup rx e i t.req.path).1.map (·.uri)) (prepare c₀ [] none (lookup rx e i t.req.path).2).params t.rw₀
          t.body₀ w with rw := t.rw, forms := t.forms }) := by
      unfold aloneWith
      have hdr' : driver o t.req (hs.map scriptProg) (fresh
          (fresh (ω := ω) ((lookup rx e i t.req.path).1.map (·.uri)) (prepare c₀ [] none (lookup rx e i t.req.path).2).params t.rw₀ t.body₀ w).ctx.fullPath
          (fresh (ω := ω) ((lookup rx e i t.req.path).1.map (·.uri)) (prepare c₀ [] none (lookup rx e i t.req.path).2).params t.rw₀ t.body₀ w).ctx.params
          (fresh (ω := ω) ((lookup rx e i t.req.path).1.map (·.uri)) (prepare c₀ [] none (lookup rx e i t.req.path).2).params t.rw₀ t.body₀ w).rw
          (fresh (ω := ω) ((lookup rx e i t.req.path).1.map (·.uri)) (prepare c₀ [] none (lookup rx e i t.req.path).2).params t.rw₀ t.body₀ w).body
          (t.told ++ rest)) = (endOut r, scriptSt ⟨c', t.rw, t.body, t.forms, w, t.trace, t.form⟩ rest) := by
        exact hdr.trans hrun
      dsimp only
      rw [hdr']
      exact if_pos rfl
    dsimp only at href
    rw [hal] at href
    exact href

/-- a path that is not registered as a literal, or without the static-route option: what earlier requests left does not matter -/
theorem reference_any {rx : Regex} {chain : Req → List (Prog ω) → St ω → Out × St ω} {site : Site ω} {req : Req} {prev : Params}
    {rw : Writer} {body : Option Str} {w : ω} {a : Spec.Answer ω} {ps : Params} (hd : ¬ Direct site req)
    (h : Reference rx chain site req prev rw body w a ps) (prev' : Params) : ∃ ps', Reference rx chain site req prev' rw body w a ps' := by
  cases h with
  | notAcceptable h1 => exact ⟨_, .notAcceptable h1⟩
  | notAllowed h1 hs => exact ⟨_, .notAllowed h1 hs⟩
  | direct _ _ h _ _ => exact absurd h hd
  | found h1 hs hd hb hf hu hp => exact ⟨_, .found h1 hs hd hb hf hu hp⟩
  | missing h1 hs hd hn hp => exact ⟨_, .missing h1 hs hd hn hp⟩

/-- **C108 (many requests at once, without the option).** Then nothing of any other request matters. -/
theorem C108_concurrent_any {rx : Regex} {o : Oracle} (hgood : o.bad 404 = false) {site : Site ω} {e : Engine (Prog ω)}
    (h : mkEngine rx site.static site.noFound site.routes = .ok e) {s : Server ω} (hr : Server.Reach rx o e s) {a : Water.Answer ω}
    (ha : a ∈ s.gone) (hd : ¬ Direct site a.req) (prev : Params) (rest : List Res) (w : ω) :
    ∃ left, Reference rx (aloneWith (driver o) (a.told ++ rest) rest) site a.req prev a.rw₀ a.body₀ w ⟨a.out, a.rw, w, a.forms⟩ left := by
  obtain ⟨_, _, h1⟩ := C108_concurrent hgood h hr ha
  exact reference_any hd (h1 rest w) prev

/-- **C108 (an application under load).** The same for the engine of an application, with the site read off the registration calls. -/
theorem C108_concurrent_application {rx : Regex} {o : Oracle} (hgood : o.bad 404 = false) {ops : List (Op (Prog ω))} {heap : Heap (Prog ω)}
    (h : runOps [] ops = .ok heap) {r : Nat} {opts : List (Opt (Prog ω))} {e : Engine (Prog ω)} (he : handler rx heap r opts = .ok e) :
    ∃ es : List (Nat × List Nat), (∀ i l, (i, l) ∈ es ↔ Endpoint ops r i l) ∧ es.Pairwise (fun a b => Precedes a.2 b.2) ∧
      ∀ (s : Server ω), Server.Reach rx o e s → ∀ a ∈ s.gone, ∃ prev left, ∀ (rest : List Res) (w : ω),
        Reference rx (aloneWith (driver o) (a.told ++ rest) rest)
          ⟨es.map (routeFor ops r), (noFoundOf ops r opts).filterMap payload, staticOf opts⟩ a.req prev a.rw₀ a.body₀ w
          ⟨a.out, a.rw, w, a.forms⟩ left := by
  obtain ⟨es, h1, _, h3, _, h5⟩ := C20_endpoints h he
  exact ⟨es, h1, h3, fun s hr a ha => C108_concurrent hgood (site := ⟨_, _, _⟩) h5 hr ha⟩

namespace Demo

/-- a site with one route, which asks the world and writes what it is told -/
def tellSite : Site Unit where
  routes := [⟨b!"GET", b!"/n", [], [.call (.world (fun u => (u, .str b!"42"))) (fun r =>
    .call (.write (match r with | .str s => s | _ => [])) (fun _ => .ret))]⟩]
  noFound := []
  static := false

/-- two requests for it at once -/
def tellTwo : List Cmd :=
  [.fresh (at' b!"/n"), .fresh (at' b!"/n")] ++ (List.replicate 5 [Cmd.act 0, Cmd.act 1]).flatten ++ [.leave 1, .leave 0]

def told42 (a : Water.Answer Unit) : Bool := (match a.told with | [.str s] => s == b!"42" | _ => false) && (answered a).2.2 == b!"42"

/-- the hypotheses of `C108_concurrent_any` are met by a request that was told something, and wrote it -/
example : ∃ (e : Engine (Prog Unit)) (s : Server Unit) (a : Water.Answer Unit),
    mkEngine rx tellSite.static tellSite.noFound tellSite.routes = .ok e ∧ Server.Reach rx chainO e s ∧ a ∈ s.gone ∧
    a.told = [.str b!"42"] ∧ (answered a).2.2 = b!"42" ∧ ¬ Direct tellSite a.req := by
  have hk : (match mkEngine rx tellSite.static tellSite.noFound tellSite.routes with
    | .error _ => false
    | .ok e =>
      match play rx chainO e (Server.init ()) tellTwo with
      | some s => match s.gone with | [a, _] => told42 a | _ => false
      | none => false) = true := by decide +kernel
  split at hk
  · cases hk
  · rename_i e he
    split at hk
    · rename_i s hs
      split at hk
      · rename_i a b ha
        simp only [told42, Bool.and_eq_true, beq_iff_eq] at hk
        obtain ⟨h1, h2⟩ := hk
        refine ⟨e, s, a, he, play_reach (.init ()) hs, by rw [ha]; exact List.mem_cons_self, ?_, h2, fun h => by cases h.1⟩
        split at h1
        · rename_i t ht
          rw [ht, eq_of_beq h1]
        · cases h1
      · cases hk
    · cases hk

end Demo

end Water
