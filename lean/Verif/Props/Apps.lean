import Verif.Lemmas.Apps
import Verif.Model.Process
import Verif.Props.Router
/-
C117: applications built in one process do not disturb each other, except through the limit for multipart forms.
-/
namespace Water
open Spec
variable {α : Type}

/-- **C117.** What `Handler` builds from a root depends only on the calls made on that root and on the routers
below it, in their order: any other calls of the process, before, after or in between, change nothing. -/
theorem C117_independent {ops : List (Op α)} {heap : Heap α} (h : runOps [] ops = .ok heap) {r : Nat}
    (hr : ∃ c, (made ops)[r]? = some c ∧ c.parent = none) :
    ∃ heap', runOps [] (mine r ops) = .ok heap' ∧
      (∀ rx opts, handler rx heap r opts = handler rx heap' 0 opts) ∧
      (∀ opts mem, handlerMem heap r opts mem = handlerMem heap' 0 opts mem) := by
  obtain ⟨g, heap', h1, h2, h3⟩ := run_sim (r := r) (sim_nil []) (.inl ⟨Nat.zero_le _, rfl⟩) h
  have e1 := run_reflects h
  have e2 := run_reflects h1
  obtain ⟨c, hc, hp⟩ := hr
  obtain ⟨n, hn, ho⟩ := nodeAt e1 hc
  have hlt := (List.getElem?_eq_some_iff.1 hn).1
  have hg : g[0]? = some r := by
    rcases h3 with ⟨h3, _⟩ | h3 | ⟨_, m, hm, hmp⟩
    · omega
    · exact h3
    · rw [hn] at hm; cases hm
      exact absurd (ho.parent.trans hp) hmp
  have hd := dumpFor_sim h2 e1 e2 hg
  refine ⟨heap', h1, fun rx opts => ?_, fun opts mem => ?_⟩
  · unfold handler; rw [hd opts]
  · unfold handlerMem; rw [hd opts]

/-- The registration calls among some events. -/
def Spec.regCalls (es : List (PEvent α)) : List (Op α) :=
  es.filterMap (fun e => match e with | .call op => some op | .build _ _ => none)

/-- The calls of `Handler` among some events. -/
def Spec.buildsOf (es : List (PEvent α)) : List (Nat × List (Opt α)) :=
  es.filterMap (fun e => match e with | .call _ => none | .build r opts => some (r, opts))

theorem proc_run_append {rx : Regex} {p q : Proc α} {a b : List (PEvent α)} :
    p.run rx (a ++ b) = .ok q ↔ ∃ m, p.run rx a = .ok m ∧ m.run rx b = .ok q := by
  induction a generalizing p with
  | nil =>
    simp only [List.nil_append]
    constructor
    · intro h; exact ⟨p, rfl, h⟩
    · rintro ⟨m, hm, h⟩; cases hm; exact h
  | cons e es ih =>
    simp only [List.cons_append, Proc.run]
    cases p.step rx e with
    | error e => simp
    | ok p' => exact ih

theorem proc_run_spec {rx : Regex} {p q : Proc α} {es : List (PEvent α)} (h : p.run rx es = .ok q) :
    runOps p.heap (regCalls es) = .ok q.heap ∧
      ∃ new, q.engines = p.engines ++ new ∧ new.length = (buildsOf es).length ∧
        (buildsOf es = [] → q.mem = p.mem) := by
  induction es generalizing p with
  | nil => cases h; exact ⟨rfl, [], by simp [buildsOf]⟩
  | cons e es ih =>
    unfold Proc.run at h
    cases hs : p.step rx e with
    | error x => rw [hs] at h; cases h
    | ok p' =>
      rw [hs] at h
      obtain ⟨h1, new, h2, h3, h4⟩ := ih h
      cases e with
      | call op =>
        simp only [Proc.step] at hs
        cases ho : Water.step p.heap op with
        | error x => rw [ho] at hs; cases hs
        | ok hp =>
          rw [ho] at hs; cases hs
          refine ⟨?_, new, h2, h3, h4⟩
          show runOps p.heap (op :: regCalls es) = _
          unfold runOps
          rw [ho]
          exact h1
      | build r opts =>
        simp only [Proc.step, Except.ok.injEq] at hs
        subst hs
        refine ⟨h1, handler rx p.heap r opts :: new, by simp [h2], ?_, ?_⟩
        · show new.length + 1 = (buildsOf es).length + 1
          rw [h3]
        · intro hb; cases hb

/-- **C117 (partial).** In any run of a process, each engine is the one its own application builds alone: it depends on the
calls made for that application before its `Handler` call, and neither on calls for others nor on anything done
later. Missing: the multipart limit, which is a package variable (`C117_memory_refuted`). -/
theorem C117_process_partial {rx : Regex} {p : Proc α} {pre post : List (PEvent α)} {r : Nat} {opts : List (Opt α)}
    (h : Proc.start.run rx (pre ++ .build r opts :: post) = .ok p)
    (hr : ∃ c, (made (regCalls pre))[r]? = some c ∧ c.parent = none) :
    ∃ heap', runOps [] (mine r (regCalls pre)) = .ok heap' ∧
      p.engines[(buildsOf pre).length]? = some (handler rx heap' 0 opts) := by
  obtain ⟨m, hm, hrest⟩ := proc_run_append.1 h
  obtain ⟨h1, new, h2, h3, _⟩ := proc_run_spec hm
  obtain ⟨heap', a1, a2, _⟩ := C117_independent h1 hr
  refine ⟨heap', a1, ?_⟩
  simp only [Proc.run, Proc.step] at hrest
  obtain ⟨_, new', b2, _, _⟩ := proc_run_spec hrest
  rw [b2, ← a2 rx opts, h2, ← h3]
  simp [Proc.start]

/-- **C117.** Two processes in which an application is made by the same calls build the same engine for it,
whatever else they do. -/
theorem C117_same {rx : Regex} {p p' : Proc α} {pre post pre' post' : List (PEvent α)} {r r' : Nat} {opts : List (Opt α)}
    (h : Proc.start.run rx (pre ++ .build r opts :: post) = .ok p)
    (h' : Proc.start.run rx (pre' ++ .build r' opts :: post') = .ok p')
    (hr : ∃ c, (made (regCalls pre))[r]? = some c ∧ c.parent = none)
    (hr' : ∃ c, (made (regCalls pre'))[r']? = some c ∧ c.parent = none)
    (hsame : mine r (regCalls pre) = mine r' (regCalls pre')) :
    p.engines[(buildsOf pre).length]? = p'.engines[(buildsOf pre').length]? := by
  obtain ⟨a, a1, a2⟩ := C117_process_partial h hr
  obtain ⟨b, b1, b2⟩ := C117_process_partial h' hr'
  rw [hsame, b1] at a1
  cases a1
  rw [a2, b2]

theorem place_range {n q : Nat} (h : q < n) : place (List.range n) q = some q := by
  have hm : q ∈ List.range n := List.mem_range.2 h
  cases e : place (List.range n) q with
  | none => exact absurd hm (place_none e)
  | some k =>
    have := place_some e
    rw [List.getElem?_eq_some_iff] at this
    obtain ⟨h1, h2⟩ := this
    simp at h2
    rw [h2]

theorem mineFrom_range {ops : List (Op α)} {heap fin : Heap α} (h : runOps heap ops = .ok fin) (h0 : 0 < heap.length)
    (hn : Op.newRouter ∉ ops) : mineFrom 0 heap.length (List.range heap.length) ops = ops := by
  induction ops generalizing heap with
  | nil => rfl
  | cons op ops ih =>
    unfold runOps at h
    cases hs : step heap op with
    | error e => rw [hs] at h; cases h
    | ok h1 =>
      rw [hs] at h
      simp only [List.mem_cons, not_or] at hn
      have mk : ∀ q n, h1 = addChild heap q n → mineFrom 0 (heap.length + 1) (List.range heap.length ++ [heap.length]) ops = ops := by
        intro q n e
        have hl : h1.length = heap.length + 1 := by rw [e]; simp [addChild]
        rw [← List.range_succ, Nat.succ_eq_add_one, ← hl]
        exact ih h (by omega) hn.2
      have md : ∀ q f, h1 = heap.modify q f → mineFrom 0 heap.length (List.range heap.length) ops = ops := by
        intro q f e
        have hl : h1.length = heap.length := by rw [e]; simp
        rw [← hl]
        exact ih h (by omega) hn.2
      have at' : ∀ q n, heap[q]? = some n → place (List.range heap.length) q = some q :=
        fun q n e => place_range (List.getElem?_eq_some_iff.1 e).1
      cases op with
      | newRouter => exact absurd rfl hn.1
      | groupBad => cases hs
      | before q x =>
        simp only [step] at hs
        cases hq : heap[q]? with
        | none => rw [hq] at hs; cases hs
        | some n =>
          rw [hq] at hs; simp only [] at hs
          split at hs; · cases hs
          split at hs; · cases hs
          simp only [Except.ok.injEq] at hs
          simp only [mineFrom, at' q n hq, md q _ hs.symm]
      | group q x =>
        simp only [step] at hs
        cases hq : heap[q]? with
        | none => rw [hq] at hs; cases hs
        | some n =>
          rw [hq] at hs; simp only [] at hs
          split at hs; · cases hs
          simp only [Except.ok.injEq] at hs
          simp only [mineFrom, at' q n hq, mk q _ hs.symm]
      | groupMw q x =>
        simp only [step] at hs
        cases hq : heap[q]? with
        | none => rw [hq] at hs; cases hs
        | some n =>
          rw [hq] at hs; simp only [] at hs
          split at hs; · cases hs
          simp only [Except.ok.injEq] at hs
          simp only [mineFrom, at' q n hq, md q _ hs.symm]
      | use q x =>
        simp only [step] at hs
        cases hq : heap[q]? with
        | none => rw [hq] at hs; cases hs
        | some n =>
          rw [hq] at hs; simp only [] at hs
          split at hs; · cases hs
          simp only [Except.ok.injEq] at hs
          simp only [mineFrom, at' q n hq, md q _ hs.symm]
      | handle q a b x =>
        simp only [step] at hs
        cases hq : heap[q]? with
        | none => rw [hq] at hs; cases hs
        | some n =>
          rw [hq] at hs; simp only [] at hs
          split at hs; · cases hs
          split at hs; · cases hs
          simp only [Except.ok.injEq] at hs
          simp only [mineFrom, at' q n hq, mk q _ hs.symm]

/-- **C117.** In a process with one application, all calls are its own. -/
theorem C117_alone {ops : List (Op α)} {heap : Heap α} (h : runOps [] (.newRouter :: ops) = .ok heap)
    (hn : Op.newRouter ∉ ops) : mine 0 (.newRouter :: ops) = .newRouter :: ops := by
  unfold runOps at h
  simp only [step, List.nil_append] at h
  unfold mine
  have := mineFrom_range (heap := [_]) h (by simp) hn
  simpa [mineFrom] using this

/-- **C117.** The multipart limit in force is that of the engine built last; without the option that is 0. -/
theorem C117_memory {rx : Regex} {p : Proc α} {pre post : List (PEvent α)} {r : Nat} {opts : List (Opt α)} {e : Engine α}
    (h : Proc.start.run rx (pre ++ .build r opts :: post) = .ok p) (hpost : buildsOf post = [])
    (he : p.engines[(buildsOf pre).length]? = some (.ok e)) : p.mem = (memOf opts).getD 0 := by
  obtain ⟨m, hm, hrest⟩ := proc_run_append.1 h
  obtain ⟨h1, new, h2, h3, _⟩ := proc_run_spec hm
  simp only [Proc.run, Proc.step] at hrest
  obtain ⟨_, new', b2, _, b4⟩ := proc_run_spec hrest
  rw [b4 hpost]
  have : handler rx m.heap r opts = .ok e := by
    rw [b2, h2, ← h3] at he
    simpa [Proc.start] using he
  exact handlerMem_eq h1 this m.mem

/-- **C117.** As long as no engine is built, the limit is 32 MB. -/
theorem C117_memory_initial {rx : Regex} {p : Proc α} {es : List (PEvent α)} (h : Proc.start.run rx es = .ok p)
    (hb : buildsOf es = []) : p.mem = 32 * 2 ^ 20 := by
  obtain ⟨_, new, _, _, h4⟩ := proc_run_spec h
  rw [h4 hb]; rfl

namespace Demo

/-- two applications whose calls are interleaved: the first (router 0) with a limit of 5, the second (router 1)
without the option -/
def twoApps : List (PEvent Nat) :=
  [.call .newRouter, .call .newRouter, .call (.use 0 [.handler 1]), .call (.use 1 [.handler 2]),
   .call (.group 1 b!"/v"), .call (.group 0 b!"/u"), .call (.handle 3 b!"GET" b!"/<id>" [.handler 3]),
   .call (.handle 2 b!"GET" b!"/<id>" [.handler 4]), .build 0 [.maxMultipart 5]]

/-- the calls of the first application, alone -/
example : mine 0 (regCalls twoApps) =
    [.newRouter, .use 0 [.handler 1], .group 0 b!"/u", .handle 1 b!"GET" b!"/<id>" [.handler 3]] := rfl

/-- and of the second -/
example : mine 1 (regCalls twoApps) =
    [.newRouter, .use 0 [.handler 2], .group 0 b!"/v", .handle 1 b!"GET" b!"/<id>" [.handler 4]] := rfl

/-- both engines are built -/
example : (match Proc.start.run rx (twoApps ++ [.build 1 []]) with
    | .ok p => p.engines.map (fun e => match e with | .ok _ => true | .error _ => false)
    | .error _ => []) = [true, true] := by decide +kernel

end Demo

open Demo in
/-- **C117 is false of the multipart limit.** Building a second engine changes the limit of the first. -/
theorem C117_memory_refuted :
    ∃ (es : List (PEvent Nat)) (r : Nat) (opts : List (Opt Nat)),
      (match Proc.start.run rx es with | .ok p => p.mem | .error _ => -1) = 5 ∧
      (match Proc.start.run rx (es ++ [.build r opts]) with | .ok p => p.mem | .error _ => -1) = 0 :=
  ⟨twoApps, 1, [], by decide +kernel, by decide +kernel⟩

end Water
