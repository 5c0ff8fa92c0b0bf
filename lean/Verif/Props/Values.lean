import Verif.Lemmas.Values
import Verif.Props.Serve
/-
C36 - C43: what a handler reads from the request: `Environ`, parameters, query, cookies.
-/
namespace Water
open Spec
variable {ω : Type}

/-! ### C36 -/

theorem envAfter_spec (ops : List EnvOp) : ∀ (m : Environ) (k : Str),
    envAfter m ops k = match m k with
      | some v => some v
      | none => firstSet k ops := by
  induction ops with
  | nil => intro m k; cases h : m k <;> simp [envAfter, firstSet, h]
  | cons op ops ih =>
    intro m k
    cases op with
    | read k' => exact ih m k
    | set k' v =>
      have hset : (m.set k' v).2 = if (m k').isSome then m else Map.set m k' v := by
        unfold Environ.set Environ.has; split <;> rfl
      simp only [envAfter, ih, firstSet, hset]
      by_cases hk : k' = k
      · subst hk
        cases hm : m k' <;> simp [Map.set, hm]
      · have : k ≠ k' := fun h => hk h.symm
        cases hm : (m k').isSome <;> simp [Map.set, hk, this]

/-- C36. After any operations on an empty store, whatever panics were recovered from on the way, a name holds the value
of its first `Set`, and `Get`, `GetMaybe` and `Has` see that value; without one, `Get` panics. -/
theorem C36_history (ops : List EnvOp) (k : Str) :
    let m := envAfter Map.empty ops
    m.getMaybe k = firstSet k ops ∧ m.has k = (firstSet k ops).isSome ∧
      (∀ v, firstSet k ops = some v → m.get k = .ok v) ∧
      (firstSet k ops = none → ∃ p, m.get k = .error p) := by
  have h : envAfter Map.empty ops k = firstSet k ops := by rw [envAfter_spec]; rfl
  refine ⟨h, by simp [Environ.has, h], ?_, ?_⟩
  · intro v hv; simp [Environ.get, h, hv]
  · intro hv; simp [Environ.get, h, hv]

/-- C36. `Set` succeeds exactly on a name that has no value; it gives the name that value and changes no other name. On a
name that has a value it panics and changes nothing. -/
theorem C36_set (m : Environ) (k : Str) (v : EVal) :
    (m.has k = false → (m.set k v).1 = .ok () ∧ (m.set k v).2.getMaybe k = some v ∧
      ∀ k', k' ≠ k → (m.set k v).2.getMaybe k' = m.getMaybe k') ∧
    (m.has k = true → (∃ p, (m.set k v).1 = .error p) ∧ (m.set k v).2 = m) := by
  constructor
  · intro h
    simp only [Environ.set, h, Bool.false_eq_true, if_false, Environ.getMaybe, Map.set, if_true, true_and]
    intro k' hk'; simp [hk']
  · intro h; simp [Environ.set, h]

/-- C36. The typed getters return the value if it has the type, and panic otherwise. -/
theorem C36_typed (m : Environ) (k : Str) :
    ((∀ b, m.getBool k = .ok b ↔ m.getMaybe k = some (.bool b)) ∧ (∀ b, m.getInt k = .ok b ↔ m.getMaybe k = some (.int b)) ∧
    (∀ b, m.getInt64 k = .ok b ↔ m.getMaybe k = some (.int64 b)) ∧ (∀ b, m.getUint k = .ok b ↔ m.getMaybe k = some (.uint b)) ∧
    (∀ b, m.getUint64 k = .ok b ↔ m.getMaybe k = some (.uint64 b)) ∧
    (∀ b, m.getFloat64 k = .ok b ↔ m.getMaybe k = some (.float64 b)) ∧
    (∀ b, m.getString k = .ok b ↔ m.getMaybe k = some (.string b))) := by
  refine ⟨?_, ?_, ?_, ?_, ?_, ?_, ?_⟩ <;> intro b
  · unfold Environ.getBool Environ.getMaybe; cases b <;> split <;> simp_all
  · unfold Environ.getInt Environ.getMaybe; split <;> simp_all
  · unfold Environ.getInt64 Environ.getMaybe; split <;> simp_all
  · unfold Environ.getUint Environ.getMaybe; split <;> simp_all
  · unfold Environ.getUint64 Environ.getMaybe; split <;> simp_all
  · unfold Environ.getFloat64 Environ.getMaybe; split <;> simp_all
  · unfold Environ.getString Environ.getMaybe; split <;> simp_all

/-- what a handler's calls do is what the methods of `Environ` do -/
theorem C36_context (o : Oracle) (req : Req) (s : St ω) (k : Str) (v : EVal) :
    ((doCall o req s (.envSet k v)).2.ctx.environ = (Environ.set s.ctx.environ k v).2 ∧
      ((∃ r, (doCall o req s (.envSet k v)).1 = .ok r) ↔ (Environ.set s.ctx.environ k v).1 = .ok ())) ∧
    (doCall o req s (.envMaybe k)).1 = .ok (.env (Environ.getMaybe s.ctx.environ k)) ∧
    (∀ x, (doCall o req s (.envGet k)).1 = .ok (.env (some x)) ↔ Environ.get s.ctx.environ k = .ok x) := by
  refine ⟨?_, rfl, ?_⟩
  · unfold doCall Environ.set Environ.has
    cases h : (s.ctx.environ k).isSome <;> simp [h]
  · intro x
    unfold doCall Environ.get
    cases h : s.ctx.environ k <;> simp [h]

theorem doCall_environ (o : Oracle) (req : Req) (s : St ω) (c : Call ω) (k : Str) (v : EVal) (h : s.ctx.environ k = some v) :
    (doCall o req s c).2.ctx.environ k = some v := by
  have wh : ∀ (s : St ω) code, s.ctx.environ k = some v → (s.writeHeader o code).2.ctx.environ k = some v := by
    intro s code h
    unfold St.writeHeader
    by_cases hw : s.ctx.written <;> simp [hw, h]
  cases c with
  | writeHeader code =>
    have := wh s code h
    simp only [doCall]
    rcases hr : s.writeHeader o code with ⟨p, s1⟩
    rw [hr] at this
    cases p <;> exact this
  | write data =>
    simp only [doCall]
    have : (s.write o data).2.ctx.environ k = some v := by
      unfold St.write
      by_cases hw : s.ctx.written
      · simp [hw, h]
      · simp only [hw, Bool.false_eq_true, if_false]
        have h2 : ∀ s : St ω, s.ctx.environ k = some v →
            (match s.writeHeader o 200 with
              | (true, s) => (true, s)
              | (false, s) => (false, { s with rw := s.rw.write data })).2.ctx.environ k = some v := by
          intro s h
          have := wh s 200 h
          rcases hr : s.writeHeader o 200 with ⟨p, s1⟩
          rw [hr] at this
          cases p <;> exact this
        apply h2
        split <;> exact h
    rcases hr : s.write o data with ⟨p, s1⟩
    rw [hr] at this
    cases p <;> exact this
  | rawWriteHeader code =>
    simp only [doCall]
    rcases hr : s.rw.writeHeader o.bad code with ⟨p, rw⟩
    cases p <;> exact h
  | envSet k' v' =>
    simp only [doCall]
    split
    · exact h
    · rename_i hk
      simp only [Map.set]
      split
      · rename_i hkk; subst hkk; rw [h] at hk; simp at hk
      · exact h
  | param k' => simp only [doCall]; split <;> exact h
  | envGet k' => simp only [doCall]; split <;> exact h
  | readBody l => simp only [doCall]; split <;> exact h
  | parseForm =>
    simp only [doCall]
    have : (s.parseForm o req).2.ctx.environ k = some v := by
      unfold St.parseForm
      split <;> exact h
    rcases hr : s.parseForm o req with ⟨p, s1⟩
    rw [hr] at this
    cases p <;> exact this
  | readForm f =>
    simp only [doCall]
    have : (s.parseForm o req).2.ctx.environ k = some v := by
      unfold St.parseForm
      split <;> exact h
    rcases hr : s.parseForm o req with ⟨p, s1⟩
    rw [hr] at this
    cases p <;> exact this
  | _ => exact h

/-- C36. A value once stored stays the same for the rest of the request, whatever the handlers do. -/
theorem C36_kept (o : Oracle) (req : Req) (s : St ω) (k : Str) (v : EVal) (h : s.ctx.environ k = some v) :
    (runAll o req s).2.ctx.environ k = some v :=
  runAll_inv o req (fun s => s.ctx.environ k = some v) (fun _ => True) (fun _ _ h => h) (fun _ h => h)
    (fun s c _ h => doCall_environ o req s c k v h) s (fun p _ => callsIn_true p) h
where
  callsIn_true (p : Prog ω) : CallsIn (fun _ => True) p := by
    induction p with
    | ret | panic _ => trivial
    | next k ih => exact ih
    | call c k ih => exact ⟨trivial, ih⟩
    | scope b f ihb ihf => exact ⟨ihb, ihf⟩

/-- C36. Every chain starts with an empty store, whatever context it runs in. -/
theorem C36_empty {rx : Regex} {o : Oracle} {e : Engine (Prog ω)} {c : Ctx ω} {req : Req} {rw : Writer}
    {body : Option Str} {w : ω} (hr : Routed req) (hc : routeOf rx e req.method req.path ≠ none ∨ e.noFound ≠ []) :
    ∃ s : St ω, (∀ k, s.ctx.environ k = none) ∧ (serve rx o e c req rw body w).out = (runAll o req s).1 ∧
      (serve rx o e c req rw body w).rw = (runAll o req s).2.rw ∧ (serve rx o e c req rw body w).trace = (runAll o req s).2.trace := by
  have : ∃ hs full, Ran (serve rx o e c req rw body w) o req rw body w hs full := by
    cases hn : routeOf rx e req.method req.path with
    | some n => exact ⟨_, _, serve_ran hr hn⟩
    | none => exact ⟨_, _, serve_nofound hr hn (hc.resolve_left (fun h => h hn))⟩
  obtain ⟨hs, full, s, hb, _, _, _, _, _, h1, h2, _, _, h3⟩ := this
  exact ⟨s, hb.environ, h1, h2, h3⟩

example : (envAfter Map.empty [.set b!"a" (.int 1), .read b!"a", .set b!"a" (.bool true), .set b!"b" (.string b!"x")]).getInt b!"a"
    = .ok 1 := by rfl

/-! ### C37 -/

theorem parseInt_read (s : Str) : ReadInt s (parseInt 64 s).1 := by
  have e : ((2 ^ (64 - 1) : Nat) : Int) = 2 ^ 63 := by decide
  refine ⟨?_, ?_, ?_⟩
  · intro n hn
    rw [parseInt_signed (by omega) (by omega) hn, e]
    unfold clamp
    split
    · rename_i h
      rw [if_neg (by omega), if_neg (by omega)]
    · rfl
  · intro h hv
    rw [parseInt_malformed (by omega) (by omega) (fun hn => h _ (signed_iff.2 ⟨hn, rfl⟩)), if_pos hv]
  · intro h hv
    rw [parseInt_malformed (by omega) (by omega) (fun hn => h _ (signed_iff.2 ⟨hn, rfl⟩)), if_neg (by omega), e]
    have : isNeg s = true ↔ s.head? = some 45 := by
      unfold isNeg; cases s <;> simp
    simp only [this]

theorem parseUint_read (s : Str) : ReadUint s (parseUint 64 s).1 := by
  refine ⟨?_, ?_, ?_⟩
  · intro h
    rw [parseUint_numeral (by omega) h]
    unfold clamp
    have : (0 : Int) ≤ value s := Int.natCast_nonneg _
    by_cases h2 : value s < 2 ^ 64
    · rw [if_pos h2, if_neg (by omega), if_neg (by omega)]
    · rw [if_neg h2, if_neg (by omega), if_pos (by omega)]; rfl
  · intro h hv
    rw [parseUint_spec 64 (by omega)]
    by_cases hs : s = []
    · simp [hs, lead, value]
    · have : lead s ≠ s := fun hl => h ⟨hs, lead_eq_iff.1 hl⟩
      simp [hs, hv, this]
  · intro h hv
    rw [parseUint_spec 64 (by omega)]
    have hs : s ≠ [] := by rintro rfl; simp [lead, value] at hv
    rw [if_neg (by omega)]
    simp [hs]

/-- C37 (partial): every integer accessor reads its string as a decimal number: the value if it fits in 64 bits, the
nearest bound if not, and 0 for anything else - except, see `C37_refuted`, for text that begins with a number of 2^64 or
more, which gives the bound although it is no number. -/
theorem C37_int_partial :
    (∀ (p : Params) k s, p k = some s → (∃ v, p.mustInt k = .ok v ∧ ReadInt s v) ∧ ∃ v, p.mustInt64 k = .ok v ∧ ReadInt s v) ∧
    (∀ (f : Form) k, ReadInt (f.query k) (f.queryInt k) ∧ ReadInt (f.query k) (f.queryInt64 k)) ∧
    (∀ (f : Form) k d, ReadInt (f.defaultQuery k d) (f.defaultQueryInt k d) ∧ ReadInt (f.defaultQuery k d) (f.defaultQueryInt64 k d)) ∧
    (∀ cs k, ReadInt (cookie cs k) (cookieInt cs k) ∧ ReadInt (cookie cs k) (cookieInt64 cs k)) := by
  refine ⟨?_, ?_, ?_, ?_⟩
  · intro p k s h
    simp only [Params.mustInt, Params.mustInt64, Params.int, Params.int64, Params.str, h, Except.map, atoi_eq, Except.ok.injEq, exists_eq_left']
    exact ⟨parseInt_read s, parseInt_read s⟩
  · intro f k; unfold Form.queryInt Form.queryInt64; rw [atoi_eq]; exact ⟨parseInt_read _, parseInt_read _⟩
  · intro f k d; unfold Form.defaultQueryInt Form.defaultQueryInt64; rw [atoi_eq]; exact ⟨parseInt_read _, parseInt_read _⟩
  · intro cs k; unfold cookieInt cookieInt64; rw [atoi_eq]; exact ⟨parseInt_read _, parseInt_read _⟩

/-- C37 (partial) for the unsigned accessors. -/
theorem C37_uint_partial :
    (∀ (p : Params) k s, p k = some s → (∃ v, p.mustUint k = .ok v ∧ ReadUint s v) ∧ ∃ v, p.mustUint64 k = .ok v ∧ ReadUint s v) ∧
    (∀ (f : Form) k, ReadUint (f.query k) (f.queryUint k) ∧ ReadUint (f.query k) (f.queryUint64 k)) ∧
    (∀ (f : Form) k d, ReadUint (f.defaultQuery k d) (f.defaultQueryUint k d) ∧ ReadUint (f.defaultQuery k d) (f.defaultQueryUint64 k d)) ∧
    (∀ cs k, ReadUint (cookie cs k) (cookieUint cs k) ∧ ReadUint (cookie cs k) (cookieUint64 cs k)) := by
  refine ⟨?_, ?_, ?_, ?_⟩
  · intro p k s h
    simp only [Params.mustUint, Params.mustUint64, Params.uint, Params.uint64, Params.str, h, Except.map, Except.ok.injEq, exists_eq_left']
    exact ⟨parseUint_read s, parseUint_read s⟩
  · intro f k; exact ⟨parseUint_read _, parseUint_read _⟩
  · intro f k d; exact ⟨parseUint_read _, parseUint_read _⟩
  · intro cs k; exact ⟨parseUint_read _, parseUint_read _⟩

/-- C37 as stated is false: `99999999999999999999abc` is no number, but is read as the largest one. -/
theorem C37_refuted : ¬ ∀ (p : Params) (k s : Str), p k = some s → (∀ n, ¬ Signed s n) → p.mustInt64 k = .ok 0 := by
  intro h
  have h1 := h (Map.set Map.empty b!"x" b!"99999999999999999999abc") b!"x" _ rfl (by
    intro n hn
    have := (signed_iff.1 hn).1.2 97 (by decide)
    revert this; decide)
  have h2 : (parseInt 64 b!"99999999999999999999abc").1 = 2 ^ 63 - 1 := by decide +kernel
  have h3 : Params.mustInt64 (Map.set Map.empty b!"x" b!"99999999999999999999abc") b!"x" =
      .ok (parseInt 64 b!"99999999999999999999abc").1 := rfl
  rw [h3, h2] at h1
  injection h1 with h1
  revert h1; decide

/-- the three cases are met -/
example : Form.queryInt64 [(b!"x", [b!" -9223372036854775809 "])] b!"x" = -9223372036854775808 ∧
    Form.queryInt [(b!"x", [b!"+12"])] b!"x" = 12 ∧ Form.queryUint [(b!"x", [b!"+12"])] b!"x" = 0 ∧
    cookieUint64 [(b!"x", b!"18446744073709551616")] b!"x" = 18446744073709551615 := by decide +kernel

/-! ### C38 -/

theorem parseInt_itoa {i : Int} (h1 : -(2 ^ 63) ≤ i) (h2 : i < 2 ^ 63) : parseInt 64 (itoa i) = (i, none) :=
  (parseInt_ok (by omega) (by omega)).2 ⟨itoa_signed i, by
    have e : ((2 ^ (64 - 1) : Nat) : Int) = 2 ^ 63 := by decide
    rw [e]; exact ⟨h1, h2⟩⟩

theorem parseUint_itoa {n : Nat} (h : n < 2 ^ 64) : parseUint 64 (itoaNat n) = (n, none) :=
  (parseUint_ok (by omega)).2 ⟨(itoaNat_spec n).1, (itoaNat_spec n).2, h⟩

theorem itoaNat_trim (n : Nat) : trimSpace (itoaNat n) = itoaNat n := signed_trim (.plain (itoaNat_spec n).1)

/-- C38. An `int64` written in decimal as a parameter, a form value (white space around it does not matter) or a cookie
value is read back unchanged. -/
theorem C38_int {i : Int} (h1 : -(2 ^ 63) ≤ i) (h2 : i < 2 ^ 63) (k : Str) :
    (∀ p : Params, p k = some (itoa i) → p.mustInt k = .ok i ∧ p.mustInt64 k = .ok i ∧ p.int64 k = .ok (i, none) ∧ p.int k = .ok (i, none)) ∧
    (∀ (f : Form) t vs, f.at k = some (t :: vs) → trimSpace t = itoa i → f.queryInt k = i ∧ f.queryInt64 k = i ∧
      ∀ d, f.defaultQueryInt k d = i ∧ f.defaultQueryInt64 k d = i) ∧
    (∀ cs, cookie cs k = itoa i → cookieInt cs k = i ∧ cookieInt64 cs k = i) := by
  have hp := parseInt_itoa h1 h2
  refine ⟨?_, ?_, ?_⟩
  · intro p h
    simp [Params.mustInt, Params.mustInt64, Params.int, Params.int64, Params.str, h, Except.map, atoi_eq, hp]
  · intro f t vs h ht
    have hq : f.query k = itoa i := by simp [Form.query, Form.exist, Form.get, h, ht]
    have hd : ∀ d, f.defaultQuery k d = itoa i := by intro d; simp [Form.defaultQuery, Form.exist, Form.get, h, ht]
    simp [Form.queryInt, Form.queryInt64, Form.defaultQueryInt, Form.defaultQueryInt64, hq, hd, atoi_eq, hp]
  · intro cs h
    simp [cookieInt, cookieInt64, h, atoi_eq, hp]

/-- the form value itself, without white space, in particular -/
theorem C38_trim (i : Int) : trimSpace (itoa i) = itoa i := signed_trim (itoa_signed i)

/-- C38 for `uint64`. -/
theorem C38_uint {n : Nat} (h : n < 2 ^ 64) (k : Str) :
    (∀ p : Params, p k = some (itoaNat n) → p.mustUint k = .ok n ∧ p.mustUint64 k = .ok n ∧ p.uint64 k = .ok (n, none) ∧ p.uint k = .ok (n, none)) ∧
    (∀ (f : Form) t vs, f.at k = some (t :: vs) → trimSpace t = itoaNat n → f.queryUint k = n ∧ f.queryUint64 k = n ∧
      ∀ d, f.defaultQueryUint k d = n ∧ f.defaultQueryUint64 k d = n) ∧
    (∀ cs, cookie cs k = itoaNat n → cookieUint cs k = n ∧ cookieUint64 cs k = n) := by
  have hp := parseUint_itoa h
  refine ⟨?_, ?_, ?_⟩
  · intro p h
    simp [Params.mustUint, Params.mustUint64, Params.uint, Params.uint64, Params.str, h, Except.map, hp]
  · intro f t vs h ht
    have hq : f.query k = itoaNat n := by simp [Form.query, Form.exist, Form.get, h, ht]
    have hd : ∀ d, f.defaultQuery k d = itoaNat n := by intro d; simp [Form.defaultQuery, Form.exist, Form.get, h, ht]
    simp [Form.queryUint, Form.queryUint64, Form.defaultQueryUint, Form.defaultQueryUint64, hq, hd, hp]
  · intro cs h
    simp [cookieUint, cookieUint64, h, hp]

theorem bindings_name {rx : Regex} {p : Str} (hk : kind p = .name) (hu : nameText p ≠ underscore) (d : List Str) (s : Str) :
    ∀ (c : List Str) (g : Nat) (ss : List Str), ss[c.length]? = some s →
      (nameText p, s) ∈ bindings rx g (c ++ p :: d) ss := by
  intro c
  induction c with
  | nil =>
    intro g ss hs
    cases ss with
    | nil => simp at hs
    | cons x ss =>
      simp at hs; subst hs
      cases d with
      | nil => simp [bindings, bindSeg, hk, hu]
      | cons q d => simp [bindings, bindSeg, hk, hu]
  | cons x c ih =>
    intro g ss hs
    cases ss with
    | nil => simp at hs
    | cons y ss =>
      rw [List.length_cons, List.getElem?_cons_succ] at hs
      rw [List.cons_append]
      cases hc : c ++ p :: d with
      | nil => simp at hc
      | cons q qs =>
        unfold bindings
        have := ih (if kind x = .star then g + 1 else g) ss hs
        rw [hc] at this
        exact List.mem_append_right _ this

/-- C38 for whole paths: a request is dispatched to a route; if the route has a parameter at some position, the names
of the route are distinct and the path has an `int64` in decimal at that position, the parameter reads as that number. -/
theorem C38_path {α : Type} {rx : Regex} {nf : List α} {rs : List (Route α)} {e : Engine α}
    (h : mkEngine rx false nf rs = .ok e) {m path : Str} {n : EndNode α} (hr : routeOf rx e m path = some n) :
    ∃ v ∈ rs, v.method = m ∧ v.uri = n.uri ∧ RouteAccepts rx v path ∧ ∃ ps, paramsOf rx e m path = some ps ∧
      ∀ c p d, routeSegs v.uri = c ++ p :: d → kind p = .name → nameText p ≠ underscore →
        ((bindings rx 0 (routeSegs v.uri) (pathSegs path)).map Prod.fst).Nodup →
        ¬ InnerRegexName (routeSegs v.uri) (nameText p) →
        (∀ i : Int, -(2 ^ 63) ≤ i → i < 2 ^ 63 → (pathSegs path)[c.length]? = some (itoa i) →
          ps.mustInt (nameText p) = .ok i ∧ ps.mustInt64 (nameText p) = .ok i) ∧
        (∀ i : Nat, i < 2 ^ 64 → (pathSegs path)[c.length]? = some (itoaNat i) →
          ps.mustUint (nameText p) = .ok i ∧ ps.mustUint64 (nameText p) = .ok i) := by
  obtain ⟨v, hv, hm, hu, ha, ps, hps, hb⟩ := C06_param_values_partial h hr
  refine ⟨v, hv, hm, hu, ha, ps, hps, ?_⟩
  intro c p d hs hk hn hd hi
  have key : ∀ s, (pathSegs path)[c.length]? = some s → ps (nameText p) = some s := by
    intro s hs'
    refine hb hd _ _ ?_ (fun h => absurd h hi)
    rw [hs]; exact bindings_name hk hn d s c 0 _ hs'
  refine ⟨?_, ?_⟩
  · intro i h1 h2 hi
    obtain ⟨h3, h4, _⟩ := (C38_int h1 h2 (nameText p)).1 ps (key _ hi)
    exact ⟨h3, h4⟩
  · intro i h1 hi
    obtain ⟨h3, h4, _⟩ := (C38_uint h1 (nameText p)).1 ps (key _ hi)
    exact ⟨h3, h4⟩

/-- the hypotheses of `C38_path` are met: route `/u/<id>/x`, value -42 -/
example : routeSegs b!"/u/<id>/x" = [b!"u"] ++ b!"<id>" :: [b!"x"] ∧ kind b!"<id>" = .name ∧ nameText b!"<id>" = b!"id" ∧
    (pathSegs b!"/u/-42/x")[1]? = some (itoa (-42)) ∧
    (bindings Demo.rx 0 (routeSegs b!"/u/<id>/x") (pathSegs b!"/u/-42/x")).map Prod.fst = [b!"id"] := by
  decide +kernel

/-! ### C39 -/

theorem parseBool_true {s : Str} : (parseBool s).1 = true ↔ s ∈ trues := by
  unfold parseBool trues
  simp only [List.mem_cons, List.not_mem_nil, or_false]
  split
  · rename_i h; simpa using h
  · rename_i h
    split <;> simpa using h

theorem parseBool_err {s : Str} : (parseBool s).2 ≠ none ↔ s ∉ trues ++ falses := by
  unfold parseBool trues falses
  simp only [List.mem_append, List.mem_cons, List.not_mem_nil, or_false]
  split
  · rename_i h; simp [h]
  · rename_i h
    split
    · rename_i h2; simp [h2]
    · rename_i h2; simp [h, h2]

/-- C39. The boolean accessors are true exactly for the six spellings of true; `Params.Bool` reports an error exactly for
strings that are none of the twelve spellings. -/
theorem C39_bool (k : Str) :
    (∀ (p : Params) s, p k = some s → (∃ b, p.mustBool k = .ok b ∧ (b = true ↔ s ∈ trues)) ∧
      ∃ b er, p.bool k = .ok (b, er) ∧ (b = true ↔ s ∈ trues) ∧ (er ≠ none ↔ s ∉ trues ++ falses)) ∧
    (∀ f : Form, f.queryBool k = true ↔ f.query k ∈ trues) ∧
    (∀ (f : Form) d, f.defaultQueryBool k d = true ↔ f.defaultQuery k d ∈ trues) ∧
    (∀ cs, cookieBool cs k = true ↔ cookie cs k ∈ trues) := by
  refine ⟨?_, fun f => parseBool_true, fun f d => parseBool_true, fun cs => parseBool_true⟩
  intro p s h
  simp only [Params.mustBool, Params.bool, Params.str, h, Except.map, Except.ok.injEq, exists_eq_left']
  exact ⟨parseBool_true, _, _, rfl, parseBool_true, parseBool_err⟩

example : parseBool b!"TRue" = (false, some .syntax) ∧
    Form.queryBool [(b!"x", [b!" T\n"])] b!"x" = true := by decide +kernel

/-! ### C40 -/

/-- C40. `Param(name)` returns the stored value, and panics if there is none. -/
theorem C40_param (p : Params) (k : Str) :
    (∀ v, p.str k = .ok v ↔ p k = some v) ∧ ((∃ e, p.str k = .error e) ↔ p k = none) ∧
    (p k = none → (∃ e, p.mustBool k = .error e) ∧ (∃ e, p.mustInt k = .error e) ∧ (∃ e, p.mustInt64 k = .error e) ∧
      (∃ e, p.mustUint k = .error e) ∧ (∃ e, p.mustUint64 k = .error e) ∧ (∃ e, p.bool k = .error e) ∧
      (∃ e, p.int k = .error e) ∧ (∃ e, p.int64 k = .error e) ∧ (∃ e, p.uint k = .error e) ∧ ∃ e, p.uint64 k = .error e) := by
  refine ⟨?_, ?_, ?_⟩
  · intro v; unfold Params.str; cases h : p k <;> simp
  · unfold Params.str; cases h : p k <;> simp
  · intro h
    simp [Params.mustBool, Params.mustInt, Params.mustInt64, Params.mustUint, Params.mustUint64, Params.bool, Params.int,
      Params.int64, Params.uint, Params.uint64, Params.str, h, Except.map]

/-- C40 in a chain: a handler that asks for a parameter gets the value of its context's parameter or panics; its next
step is never run with anything else. -/
theorem C40_handler (o : Oracle) (req : Req) (nx : St ω → Out × St ω) (i : Nat) (s : St ω) (x : Str) (k : Res → Prog ω) :
    (∀ v, s.ctx.params x = some v → exec o req nx i (.call (.param x) k) s = exec o req nx i (k (.str v)) s) ∧
    (s.ctx.params x = none → ∃ v, exec o req nx i (.call (.param x) k) s = (.panic v, s)) := by
  constructor
  · intro v h; simp [exec, doCall, h]
  · intro h; simp [exec, doCall, h]

/-! ### C41 -/

/-- C41. On a form whose names are distinct (a Go map): `Query` is the first value without surrounding white space, or
empty; `DefaultQuery` is the same, or the default, exactly if the name has no value. -/
theorem C41_query {f : Form} (hd : (f.map Prod.fst).Nodup) (k dflt : Str) :
    (values f k = [] → f.query k = [] ∧ f.defaultQuery k dflt = dflt) ∧
    (∀ v vs, values f k = v :: vs → Trimmed v (f.query k) ∧ f.defaultQuery k dflt = f.query k) := by
  have h := form_at_values hd k
  constructor
  · intro hv
    rw [hv] at h
    simp [Form.query, Form.defaultQuery, Form.exist, h]
  · intro v vs hv
    rw [hv] at h
    simp only [Form.query, Form.defaultQuery, Form.exist, Form.get, h]
    exact ⟨trimSpace_trimmed v, rfl⟩

/-- C41. The array variants return all values, trimmed, in order; without values `QueryArray` is nil. -/
theorem C41_array {f : Form} (hd : (f.map Prod.fst).Nodup) (k : Str) (dflt : Option (List Str)) :
    (values f k = [] → f.queryArray k = none) ∧
    (values f k ≠ [] → ∃ ts, f.queryArray k = some ts ∧ f.defaultQueryArray k dflt = some ts ∧
      ts.length = (values f k).length ∧ ∀ (i : Nat) v t, (values f k)[i]? = some v → ts[i]? = some t → Trimmed v t) ∧
    (k ∉ f.map Prod.fst → f.defaultQueryArray k dflt = dflt) := by
  have h := form_at_values hd k
  refine ⟨?_, ?_, ?_⟩
  · intro hv
    rw [hv] at h
    simp [Form.queryArray, Form.exist, h]
  · intro hv
    refine ⟨(values f k).map trimSpace, ?_, ?_, by simp, ?_⟩
    · simp only [Form.queryArray, Form.exist, h]
      simp [hv]
    · unfold Form.defaultQueryArray
      cases ha : f.at k with
      | none => rw [ha] at h; exact absurd h.symm hv
      | some vs => rw [ha] at h; simp at h; rw [h]
    · intro i v t h1 h2
      rw [List.getElem?_map, h1] at h2
      injection h2 with h2; subst h2
      exact trimSpace_trimmed v
  · intro hk
    have : f.at k = none := by
      unfold Form.at
      rw [Option.map_eq_none_iff, List.find?_eq_none]
      intro e he hek
      rw [beq_iff_eq] at hek
      exact hk (hek ▸ List.mem_map_of_mem he)
    simp [Form.defaultQueryArray, this]

example : Form.query [(b!"a", [b!" x y\t", b!"z"]), (b!"b", [])] b!"a" = b!"x y" ∧
    Form.defaultQuery [(b!"a", [b!" x y\t", b!"z"]), (b!"b", [])] b!"b" b!" d" = b!" d" ∧
    Form.queryArray [(b!"a", [b!" x y\t", b!"z"]), (b!"b", [])] b!"a" = some [b!"x y", b!"z"] := by decide +kernel

/-! ### C42 -/

/-- C42 (partial): if no value list is empty and no two form names are filed under one key, `QueryMap` maps a key to the
trimmed first value of the form name of shape `name[key]..`, and has no other keys; this does not mention the order of
the form, so every iteration order gives the same map. What is missing: see `C42_refuted`. -/
theorem C42_query_map_partial {f : Form} {name : Str} (hv : ∀ k vs key, (k, vs) ∈ f → Files name key k → vs ≠ [])
    (huniq : ∀ e1 ∈ f, ∀ e2 ∈ f, ∀ key, Files name key e1.1 → Files name key e2.1 → e1 = e2) :
    ∃ m, f.queryMap name = .ok m ∧
      (∀ key, m key ≠ none ↔ ∃ e ∈ f, Files name key e.1) ∧
      (∀ key k v vs, (k, v :: vs) ∈ f → Files name key k → ∃ t, m key = some t ∧ Trimmed v t) := by
  obtain ⟨r, hr⟩ := queryMapLoop_ok hv (Map.empty, false)
  obtain ⟨h1, h2, _⟩ := queryMapLoop_spec hr
  refine ⟨r.1, by simp [Form.queryMap, hr, Except.map], ?_, ?_⟩
  · intro key
    constructor
    · intro hm
      cases hk : r.1 key with
      | none => exact absurd hk hm
      | some v =>
        rcases h1 key v hk with h | ⟨k, x, xs, h3, h4, _⟩
        · cases h
        · exact ⟨_, h3, h4⟩
    · rintro ⟨⟨k, vs⟩, h3, h4⟩
      exact h2 key (.inl ⟨k, vs, h3, h4⟩)
  · intro key k v vs h3 h4
    cases hk : r.1 key with
    | none => exact absurd hk (h2 key (.inl ⟨k, _, h3, h4⟩))
    | some t =>
      rcases h1 key t hk with h | ⟨k', x, xs, h5, h6, rfl⟩
      · cases h
      · have := huniq _ h3 _ h5 key h4 h6
        injection this with _ h7
        injection h7 with h8 _
        subst h8
        exact ⟨_, rfl, trimSpace_trimmed v⟩

/-- C42, whatever the form: every entry comes from a form name filed under its key, every form name filed under a key
leaves an entry there, and `DefaultQueryMap` differs from `QueryMap` exactly in returning the default if no form name is
filed. -/
theorem C42_sources {f : Form} {name : Str} {m : Map Str Str} (h : f.queryMap name = .ok m) :
    (∀ key t, m key = some t → ∃ k v vs, (k, v :: vs) ∈ f ∧ Files name key k ∧ Trimmed v t) ∧
    (∀ key k vs, (k, vs) ∈ f → Files name key k → m key ≠ none) ∧
    (∀ dflt, (∃ e ∈ f, ∃ key, Files name key e.1) → f.defaultQueryMap name dflt = .ok m) ∧
    (∀ dflt, (¬ ∃ e ∈ f, ∃ key, Files name key e.1) → f.defaultQueryMap name dflt = .ok dflt) := by
  unfold Form.queryMap at h
  cases hr : queryMapLoop name f (Map.empty, false) with
  | error e => rw [hr] at h; cases h
  | ok r =>
    rw [hr] at h
    simp only [Except.map, Except.ok.injEq] at h
    subst h
    obtain ⟨h1, h2, h3⟩ := queryMapLoop_spec hr
    refine ⟨?_, ?_, ?_, ?_⟩
    · intro key t ht
      rcases h1 key t ht with h | ⟨k, x, xs, h4, h5, rfl⟩
      · cases h
      · exact ⟨k, x, xs, h4, h5, trimSpace_trimmed x⟩
    · exact fun key k vs h4 h5 => h2 key (.inl ⟨k, vs, h4, h5⟩)
    · rintro dflt ⟨⟨k, vs⟩, h4, key, h5⟩
      have : r.2 = true := h3.2 (.inr ⟨k, vs, key, h4, h5⟩)
      simp [Form.defaultQueryMap, hr, Except.map, this]
    · intro dflt hn
      have : r.2 = false := by
        cases h4 : r.2 with
        | false => rfl
        | true =>
          rcases h3.1 h4 with h5 | ⟨k, vs, key, h5, h6⟩
          · cases h5
          · exact absurd ⟨_, h5, key, h6⟩ hn
      simp [Form.defaultQueryMap, hr, Except.map, this]

/-- C42 as stated is false: `ids[a]` and `ids[a]zz` are both filed under `a`, and the iteration order decides. -/
theorem C42_refuted : ∃ (f g : Form) (name key : Str) (m n : Map Str Str), f.Perm g ∧ (f.map Prod.fst).Nodup ∧
    f.queryMap name = .ok m ∧ g.queryMap name = .ok n ∧ m key ≠ n key := by
  refine ⟨[(b!"ids[a]", [b!"1"]), (b!"ids[a]zz", [b!"2"])], [(b!"ids[a]zz", [b!"2"]), (b!"ids[a]", [b!"1"])], b!"ids", b!"a",
    Map.set (Map.set Map.empty b!"a" b!"1") b!"a" b!"2", Map.set (Map.set Map.empty b!"a" b!"2") b!"a" b!"1",
    List.Perm.swap _ _ _, by decide, rfl, rfl, by decide⟩

/-- a form meeting the hypotheses of `C42_query_map_partial` -/
example : (match Form.queryMap [(b!"ids[a]", [b!" 1 "]), (b!"x", []), (b!"ids[b]", [b!"2"]), (b!"ids[]", [b!"3"]), (b!"idx[c]", [b!"4"])] b!"ids" with
    | .ok m => m b!"a" == some b!"1" && m b!"b" == some b!"2" && m b!"c" == none && m [] == none
    | .error _ => false) = true := by decide +kernel

/-! ### C43 -/

theorem wantsMultipart_iff (req : Req) : wantsMultipart req = true ↔ Multipart req := by
  unfold wantsMultipart Multipart
  rw [Bool.and_eq_true, containsStr_iff (by decide)]
  simp only [Bool.or_eq_true, beq_iff_eq, List.mem_cons, List.not_mem_nil, or_false, mPOST, mPUT, mPATCH, kContentType, or_assoc]

/-- nothing parsed, or parsed once in the right way -/
def FormsOk (req : Req) (s : St ω) : Prop :=
  (s.forms = [] ∧ s.ctx.parsedParams = false) ∨ (s.forms = [wantsMultipart req] ∧ s.ctx.parsedParams = true)

/-- parsed -/
def FormsDone (req : Req) (s : St ω) : Prop := s.forms = [wantsMultipart req] ∧ s.ctx.parsedParams = true

theorem doCall_forms (o : Oracle) (req : Req) (s : St ω) (c : Call ω) :
    ((doCall o req s c).2.forms = s.forms ∧ (doCall o req s c).2.ctx.parsedParams = s.ctx.parsedParams) ∨
    (s.ctx.parsedParams = false ∧ (doCall o req s c).2.forms = s.forms ++ [wantsMultipart req] ∧
      (doCall o req s c).2.ctx.parsedParams = true) := by
  have wh : ∀ (s : St ω) code, (s.writeHeader o code).2.forms = s.forms ∧
      (s.writeHeader o code).2.ctx.parsedParams = s.ctx.parsedParams := by
    intro s code
    unfold St.writeHeader
    by_cases hw : s.ctx.written <;> simp [hw]
  cases c with
  | writeHeader code =>
    left
    have := wh s code
    simp only [doCall]
    rcases hr : s.writeHeader o code with ⟨p, s1⟩
    rw [hr] at this
    cases p <;> exact this
  | write data =>
    left
    simp only [doCall]
    have : (s.write o data).2.forms = s.forms ∧ (s.write o data).2.ctx.parsedParams = s.ctx.parsedParams := by
      unfold St.write
      by_cases hw : s.ctx.written
      · simp [hw]
      · simp only [hw, Bool.false_eq_true, if_false]
        have h2 : ∀ s' : St ω, (match s'.writeHeader o 200 with
              | (true, s) => (true, s)
              | (false, s) => (false, { s with rw := s.rw.write data })).2.forms = s'.forms ∧
            (match s'.writeHeader o 200 with
              | (true, s) => (true, s)
              | (false, s) => (false, { s with rw := s.rw.write data })).2.ctx.parsedParams = s'.ctx.parsedParams := by
          intro s'
          have := wh s' 200
          rcases hr : s'.writeHeader o 200 with ⟨p, s1⟩
          rw [hr] at this
          cases p <;> exact this
        have := h2 (if data.length > 0 ∧ s.rw.header.get kContentType = [] then
            { s with rw := { s.rw with header := s.rw.header.put kContentType (o.detect data) } } else s)
        refine ⟨this.1.trans ?_, this.2.trans ?_⟩ <;> (split <;> rfl)
    rcases hr : s.write o data with ⟨p, s1⟩
    rw [hr] at this
    cases p <;> exact this
  | rawWriteHeader code =>
    left
    simp only [doCall]
    rcases hr : s.rw.writeHeader o.bad code with ⟨p, rw⟩
    cases p <;> exact ⟨rfl, rfl⟩
  | envSet k' v' => left; simp only [doCall]; split <;> exact ⟨rfl, rfl⟩
  | param k' => left; simp only [doCall]; split <;> exact ⟨rfl, rfl⟩
  | envGet k' => left; simp only [doCall]; split <;> exact ⟨rfl, rfl⟩
  | readBody l => left; simp only [doCall]; split <;> exact ⟨rfl, rfl⟩
  | parseForm =>
    simp only [doCall]
    unfold St.parseForm
    cases hp : s.ctx.parsedParams with
    | true => left; simp [hp]
    | false =>
      right
      simp only [Bool.false_eq_true, if_false]
      cases (o.parse req (wantsMultipart req) s.body).fails <;> exact ⟨trivial, rfl, rfl⟩
  | readForm f =>
    simp only [doCall]
    unfold St.parseForm
    cases hp : s.ctx.parsedParams with
    | true => left; simp [hp]
    | false =>
      right
      simp only [Bool.false_eq_true, if_false]
      cases (o.parse req (wantsMultipart req) s.body).fails <;> exact ⟨trivial, rfl, rfl⟩
  | _ => exact .inl ⟨rfl, rfl⟩

theorem doCall_formsOk (o : Oracle) (req : Req) (s : St ω) (c : Call ω) (h : FormsOk req s) : FormsOk req (doCall o req s c).2 := by
  rcases doCall_forms o req s c with ⟨h1, h2⟩ | ⟨h0, h1, h2⟩
  · unfold FormsOk; rw [h1, h2]; exact h
  · rcases h with ⟨h3, _⟩ | ⟨_, h4⟩
    · right; rw [h1, h2, h3]; exact ⟨rfl, rfl⟩
    · rw [h0] at h4; cases h4

theorem doCall_formsDone (o : Oracle) (req : Req) (s : St ω) (c : Call ω) (h : FormsDone req s) : FormsDone req (doCall o req s c).2 := by
  rcases doCall_forms o req s c with ⟨h1, h2⟩ | ⟨h0, _, _⟩
  · unfold FormsDone; rw [h1, h2]; exact h
  · have := h.2; rw [h0] at this; cases this

theorem runAll_formsOk (o : Oracle) (req : Req) (s : St ω) (h : FormsOk req s) : FormsOk req (runAll o req s).2 :=
  runAll_inv o req (FormsOk req) (fun _ => True) (fun _ _ h => h) (fun _ h => h)
    (fun s c _ h => doCall_formsOk o req s c h) s (fun p _ => C36_kept.callsIn_true p) h

/-- C43. Whatever a request is and whatever its handlers do, its form is parsed at most once, as a multipart form exactly
if it is one. -/
theorem C43_once (rx : Regex) (o : Oracle) (e : Engine (Prog ω)) (c : Ctx ω) (req : Req) (rw : Writer) (body : Option Str)
    (w : ω) : let sv := serve rx o e c req rw body w
    sv.forms.length ≤ 1 ∧ ∀ m ∈ sv.forms, m = true ↔ Multipart req := by
  have key : ∀ s : St ω, FormsOk req s → s.forms.length ≤ 1 ∧ ∀ m ∈ s.forms, m = true ↔ Multipart req := by
    rintro s (⟨h, _⟩ | ⟨h, _⟩)
    · rw [h]; simp
    · rw [h]; simp [wantsMultipart_iff]
  unfold serve
  split
  · simp
  · split
    · simp
    · rename_i i _
      cases hc : chainFor e (lookup rx e i req.path).1 with
      | none =>
        obtain ⟨cx, h⟩ := serveRouted_none (o := o) (c := c) (req := req) (rw := rw) (body := body) (w := w)
          (params := (lookup rx e i req.path).2) hc
        simp only [h]; simp
      | some hs =>
        simp only [serveRouted_chain hc]
        exact key _ (runAll_formsOk o req _ (.inl ⟨rfl, rfl⟩))

/-- C43. A handler's first demand for the form parses it, in whatever context the request is served: if the chain begins
with a handler that begins by asking for the form, the form has been parsed once, in the right way, when the request
ends. -/
theorem C43_parses {rx : Regex} {o : Oracle} {e : Engine (Prog ω)} {c : Ctx ω} {req : Req} {rw : Writer}
    {body : Option Str} {w : ω} (hr : Routed req) {n : EndNode (Prog ω)} (hn : routeOf rx e req.method req.path = some n)
    {k : Res → Prog ω} {hs : List (Prog ω)} (hh : n.handlers = .call .parseForm k :: hs) :
    ∃ m, (serve rx o e c req rw body w).forms = [m] ∧ (m = true ↔ Multipart req) := by
  obtain ⟨s, hb, h1, _, _, _, _, _, _, _, h2, _⟩ := serve_ran (o := o) (c := c) (rw := rw) (body := body) (w := w) hr hn
  refine ⟨wantsMultipart req, ?_, wantsMultipart_iff req⟩
  rw [h2]
  suffices h : FormsDone req (runAll o req s).2 from h.1
  have hrun : ∀ fuel (s : St ω), FormsDone req s → FormsDone req (run o req fuel s).2 := fun fuel =>
    run_inv o req (FormsDone req) (fun _ => True) (fun _ _ h => h) (fun _ h => h)
      (fun s c _ h => doCall_formsDone o req s c h) (fun s _ p _ => C36_kept.callsIn_true p) fuel
  unfold runAll
  rw [run, hb.index, h1, hh]
  simp only [List.getElem?_cons_zero]
  have hex : FormsDone req (exec o req (run o req (n.handlers.length)) 0 (.call .parseForm k) (s.log (.start 0))).2 := by
    simp only [exec]
    have hd : FormsDone req (doCall o req (s.log (.start 0)) .parseForm).2 := by
      simp only [doCall, St.parseForm]
      have hp : (s.log (.start 0)).ctx.parsedParams = false := hb.parsed
      have hf : (s.log (.start 0)).forms = [] := hb.forms
      rw [hp]
      simp only [Bool.false_eq_true, if_false]
      cases (o.parse req (wantsMultipart req) (s.log (.start 0)).body).fails <;> (refine ⟨?_, rfl⟩; simp [hf])
    rcases hr : doCall o req (s.log (.start 0)) .parseForm with ⟨out, s1⟩
    rw [hr] at hd
    cases out with
    | error v => exact hd
    | ok r =>
      exact exec_inv o req (FormsDone req) (fun _ => True) _ (fun _ _ _ h => h) (fun _ h => h)
        (fun s c _ h => doCall_formsDone o req s c h) (hrun _) 0 (k r) (C36_kept.callsIn_true _) _ hd
  rw [← hh]
  rcases hr : exec o req (run o req (n.handlers.length)) 0 (.call .parseForm k) (s.log (.start 0)) with ⟨out, s1⟩
  rw [hr] at hex
  cases out with
  | fuel => exact hex
  | panic v => exact hex
  | ret =>
    simp only
    split
    · exact hex
    · exact hrun _ _ hex

end Water
