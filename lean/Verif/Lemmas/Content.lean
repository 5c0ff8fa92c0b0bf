import Verif.Spec.Cache
import Verif.Props.Files
/-
Lemmas about `http.ServeContent`.
-/
namespace Water
open Spec
variable {ω : Type}

/-- the header of a content that is sent -/
def sentHeader (encoded : Bool) (n : Nat) (h : Header) : Header :=
  let h := h.put b!"Accept-Ranges" b!"bytes"
  if encoded then h else h.put b!"Content-Length" (itoaNat n)

/-- what is sent -/
def sentLog (code : Int) (h : Header) (data : Str) : List WEvent :=
  .status true code h :: (if data = [] then [] else [.body data])

theorem exec_sendContent {o : Oracle} {req : Req} {nx : St ω → Out × St ω} {k : Nat} {s : St ω} {method : Str} {code : Int} {encoded : Bool}
    {data : Str} (hm : method ≠ b!"HEAD") (hl : s.rw.log = []) (hb : o.bad code = false) :
    exec o req nx k (sendContent method code encoded data) s =
      (.ret, { s with rw := ⟨sentHeader encoded data.length s.rw.header, sentLog code (sentHeader encoded data.length s.rw.header) data⟩ }) := by
  have hm' : method ≠ mHEAD := hm
  unfold sendContent sentHeader sentLog
  rw [Prog.do, exec]
  simp only [doCall]
  cases encoded <;> by_cases hd : data = [] <;>
    simp [Prog.do, exec, doCall, Writer.writeHeader, Writer.write, hl, hb, hd, hm']

/-- the header of the whole content or of a part of it, before the range is looked at -/
def typedOf (io : ContentIO ω) (o : Oracle) (name : Str) (modTime : Int) (data : Str) (h : Header) : Header :=
  typedHeader io o name data (setLastModified io modTime h)

/-- the header of the whole content -/
def wholeHeader (io : ContentIO ω) (o : Oracle) (name : Str) (modTime : Int) (data : Str) (h : Header) : Header :=
  let h := typedOf io o name modTime data h
  sentHeader (h.get b!"Content-Encoding" != []) data.length h

theorem exec_content {o : Oracle} {req : Req} {nx : St ω → Out × St ω} {k : Nat} {s : St ω} {io : ContentIO ω} {name : Str} {mt : Int} {f : Nat}
    (hm : req.method = b!"GET") (hl : s.rw.log = []) (h200 : o.bad 200 = false)
    (hc : checkPreconditions io.parseTime (condReq req) ((setLastModified io mt s.rw.header).get b!"Etag") mt = .go []) :
    exec o req nx k (serveContentStd io o name mt f) s =
      (.ret, { s with rw := ⟨wholeHeader io o name mt (io.read f s.world) s.rw.header,
        sentLog 200 (wholeHeader io o name mt (io.read f s.world) s.rw.header) (io.read f s.world)⟩ }) := by
  unfold serveContentStd
  rw [exec]
  simp only [doCall]
  rw [exec]
  simp only [doCall]
  have hc' : checkPreconditions io.parseTime ⟨(condReq req).method, (condReq req).ifMatch, (condReq req).ifUnmodified, (condReq req).ifNoneMatch,
      (condReq req).ifModified, (condReq req).range, (condReq req).ifRange⟩ ((setLastModified io mt s.rw.header).get b!"Etag") mt = .go [] := hc
  rw [hc']
  dsimp only
  unfold sendFile
  rw [exec]
  simp only [doCall]
  rw [exec]
  simp only [doCall]
  have hr : ∀ ct enc d, sendRanges io (condReq req).method [] ct enc d = sendContent (condReq req).method 200 enc d := fun _ _ _ => rfl
  rw [hr]
  have hm' : (condReq req).method ≠ b!"HEAD" := by
    show req.method ≠ _
    rw [hm]; decide
  rw [exec_sendContent hm' (by exact hl) h200]
  rfl

theorem exec_notModified {o : Oracle} {req : Req} {nx : St ω → Out × St ω} {k : Nat} {s : St ω} {io : ContentIO ω} {name : Str} {mt : Int} {f : Nat}
    (hl : s.rw.log = []) (h304 : o.bad 304 = false)
    (hc : checkPreconditions io.parseTime (condReq req) ((setLastModified io mt s.rw.header).get b!"Etag") mt = .notModified) :
    exec o req nx k (serveContentStd io o name mt f) s =
      (.ret, { s with rw := ⟨notModifiedHeader (setLastModified io mt s.rw.header),
        [.status true 304 (notModifiedHeader (setLastModified io mt s.rw.header))]⟩ }) := by
  unfold serveContentStd
  rw [exec]
  simp only [doCall]
  rw [exec]
  simp only [doCall]
  have hc' : checkPreconditions io.parseTime ⟨(condReq req).method, (condReq req).ifMatch, (condReq req).ifUnmodified, (condReq req).ifNoneMatch,
      (condReq req).ifModified, (condReq req).range, (condReq req).ifRange⟩ ((setLastModified io mt s.rw.header).get b!"Etag") mt = .notModified := hc
  rw [hc']
  simp [Prog.do, exec, doCall, Writer.writeHeader, hl, h304]

/-! Headers -/

theorem fieldOf_put_other {h : Header} {k k' v : Str} (hk : canonKey k ≠ k') : fieldOf (h.put k v) k' = fieldOf h k' := by
  unfold fieldOf Header.put Map.set
  simp [hk.symm]

theorem fieldOf_put_same {h : Header} {k k' v : Str} (hk : canonKey k = k') : fieldOf (h.put k v) k' = some v := by
  unfold fieldOf Header.put Map.set
  simp [hk, join]

theorem sentHeader_field {enc : Bool} {n : Nat} {h : Header} {k : Str} (h1 : k ≠ b!"Accept-Ranges") (h2 : k ≠ b!"Content-Length") :
    fieldOf (sentHeader enc n h) k = fieldOf h k := by
  unfold sentHeader
  have e1 : canonKey b!"Accept-Ranges" = b!"Accept-Ranges" := by decide +kernel
  have e2 : canonKey b!"Content-Length" = b!"Content-Length" := by decide +kernel
  cases enc
  · simp only [Bool.false_eq_true, if_false]
    rw [fieldOf_put_other (by rw [e2]; exact h2.symm), fieldOf_put_other (by rw [e1]; exact h1.symm)]
  · simp only [if_true]
    rw [fieldOf_put_other (by rw [e1]; exact h1.symm)]

theorem typedHeader_field {io : ContentIO ω} {o : Oracle} {name d : Str} {h : Header} {k : Str} (h1 : k ≠ b!"Content-Type") :
    fieldOf (typedHeader io o name d h) k = fieldOf h k := by
  have e1 : canonKey b!"Content-Type" = b!"Content-Type" := by decide +kernel
  unfold typedHeader
  split
  · rfl
  · exact fieldOf_put_other (by rw [e1]; exact h1.symm)

theorem lastModified_etag {io : ContentIO ω} {mt : Int} {h : Header} {k : Str} (hk : k ≠ b!"Last-Modified") :
    fieldOf (setLastModified io mt h) k = fieldOf h k := by
  have e1 : canonKey b!"Last-Modified" = b!"Last-Modified" := by decide +kernel
  unfold setLastModified
  split
  · rfl
  · exact fieldOf_put_other (by rw [e1]; exact hk.symm)

theorem lastModified_date {io : ContentIO ω} {mt : Int} {h : Header} (hn : fieldOf h b!"Last-Modified" = none) :
    fieldOf (setLastModified io mt h) b!"Last-Modified" = if isZeroTime mt then none else some (io.formatTime mt) := by
  unfold setLastModified
  split
  · exact hn
  · exact fieldOf_put_same (by decide +kernel)

theorem header_field {h : Header} {k : Str} (hk : canonKey k = k) (hn : fieldOf h k = none) : h.get k = [] := by
  unfold Header.get
  rw [hk]
  unfold fieldOf at hn
  split
  · rename_i v vs e
    rw [e] at hn
    cases hn
  · rfl

end Water
