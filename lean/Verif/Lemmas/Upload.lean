import Verif.Spec.Upload
/- `io.Copy` between a reader and a file, and the calls around it. -/
namespace Water
open Spec

theorem set_at {κ ν : Type} [DecidableEq κ] (m : Map κ ν) (k : κ) (v : ν) : m.set k v k = some v := by simp [Map.set]

theorem set_off {κ ν : Type} [DecidableEq κ] (m : Map κ ν) {k k' : κ} (v : ν) (h : k' ≠ k) : m.set k v k' = m k' := by
  simp [Map.set, h]

theorem Disk.close_open (l : Luck) (fd : Nat) (d : Disk) (k : Nat) :
    (d.close l fd).open' k = if k = fd then none else d.open' k := by
  unfold Disk.close
  cases h : d.open' fd with
  | none =>
    dsimp only [Disk.tick]
    by_cases hk : k = fd
    · rw [if_pos hk, hk, h]
    · rw [if_neg hk]
  | some x =>
    dsimp only
    split <;> rfl

theorem Disk.close_names (l : Luck) (fd : Nat) (d : Disk) : (d.close l fd).names = d.names := by
  unfold Disk.close
  split
  · rfl
  · dsimp only
    split <;> rfl

/-- Closing keeps all files, if it loses nothing. -/
theorem Disk.close_files {l : Luck} (hl : Reliable l) (fd : Nat) (d : Disk) : (d.close l fd).files = d.files := by
  unfold Disk.close
  split
  · rfl
  · dsimp only
    rw [hl]
    split
    · rename_i h _; exact absurd h (by simp)
    · rfl

/-- Closing a descriptor for reading keeps all files. -/
theorem Disk.close_reading (l : Luck) {fd : Nat} {d : Disk} (h : ∀ x, d.open' fd = some x → x.out = false) :
    (d.close l fd).files = d.files := by
  unfold Disk.close
  split
  · rfl
  · rename_i x hx
    dsimp only
    rw [h x hx]
    rfl

/-- Closing a descriptor keeps the files other than its own. -/
theorem Disk.close_other (l : Luck) {fd : Nat} {d : Disk} {i : Nat} (h : ∀ x, d.open' fd = some x → x.file ≠ i) :
    (d.close l fd).files i = d.files i := by
  unfold Disk.close
  split
  · rfl
  · rename_i x hx
    dsimp only
    split
    · exact set_off _ _ (fun e => h x hx e.symm)
    · rfl

/-- Closing keeps at least a beginning of a file, and its permissions. -/
theorem Disk.close_prefix (l : Luck) (fd : Nat) (d : Disk) {i : Nat} {n : Inode} (h : d.files i = some n) :
    ∃ m, (d.close l fd).files i = some m ∧ m.perm = n.perm ∧ m.data <+: n.data := by
  unfold Disk.close
  split
  · exact ⟨n, h, rfl, List.prefix_rfl⟩
  · rename_i x hx
    dsimp only
    split
    · rename_i k m _ _ hm
      by_cases hi : i = x.file
      · rw [hi] at h ⊢
        rw [h] at hm
        cases hm
        exact ⟨_, set_at _ _ _, rfl, List.take_prefix _ _⟩
      · exact ⟨n, by rw [← h]; exact set_off _ _ hi, rfl, List.prefix_rfl⟩
    · exact ⟨n, h, rfl, List.prefix_rfl⟩

/-- What reading does not touch. -/
theorem Reader.read_frame (l : Luck) (r : Reader) (d : Disk) :
    let x := r.read l d
    x.2.1.names = d.names ∧ x.2.1.files = d.files ∧ x.2.1.umask = d.umask ∧
    (∀ k, r ≠ .desc k → x.2.1.open' k = d.open' k) ∧
    (∀ k, (x.2.1.open' k).map (fun y => (y.file, y.out)) = (d.open' k).map (fun y => (y.file, y.out))) ∧
    ((∃ a b, r = .memory a ∧ x.1 = .memory b) ∨ x.1 = r) := by
  dsimp only
  unfold Reader.read
  cases r with
  | memory s =>
    dsimp only
    split
    · exact ⟨rfl, rfl, rfl, fun _ _ => rfl, fun _ => rfl, .inr rfl⟩
    · exact ⟨rfl, rfl, rfl, fun _ _ => rfl, fun _ => rfl, .inl ⟨s, _, rfl, rfl⟩⟩
  | desc fd =>
    dsimp only
    split
    · exact ⟨rfl, rfl, rfl, fun _ _ => rfl, fun _ => rfl, .inr rfl⟩
    · split
      · exact ⟨rfl, rfl, rfl, fun _ _ => rfl, fun _ => rfl, .inr rfl⟩
      · rename_i x hx
        refine ⟨rfl, rfl, rfl, fun k hk => ?_, fun k => ?_, .inr rfl⟩
        · exact set_off _ _ (fun e => hk (by rw [e]))
        · by_cases hk : k = fd
          · rw [hk, hx]
            simp only [set_at, Option.map_some]
          · simp only [set_off _ _ hk]

/-- What writing does not touch. -/
theorem Disk.write_frame (l : Luck) (fd : Nat) (bs : Str) (d : Disk) :
    let x := d.write l fd bs
    x.1.names = d.names ∧ x.1.umask = d.umask ∧
    (∀ k, k ≠ fd → x.1.open' k = d.open' k) ∧
    (∀ k, (x.1.open' k).map (fun y => (y.file, y.out)) = (d.open' k).map (fun y => (y.file, y.out))) ∧
    (∀ i, (∀ y, d.open' fd = some y → y.file ≠ i) → x.1.files i = d.files i) := by
  dsimp only
  unfold Disk.write
  split
  · exact ⟨rfl, rfl, fun _ _ => rfl, fun _ => rfl, fun _ _ => rfl⟩
  · rename_i x hx
    split
    · exact ⟨rfl, rfl, fun _ _ => rfl, fun _ => rfl, fun _ _ => rfl⟩
    · refine ⟨rfl, rfl, fun k hk => set_off _ _ hk, fun k => ?_, fun i hi => ?_⟩
      · by_cases hk : k = fd
        · rw [hk, hx]
          simp only [set_at, Option.map_some]
        · simp only [set_off _ _ hk]
      · exact set_off _ _ (fun e => hi x hx e.symm)

/-- What copying does not touch, on any path through it. -/
theorem copyTo_frame (l : Luck) (fd : Nat) : ∀ (fuel : Nat) (r : Reader) (d : Disk),
    let x := copyTo l fd fuel r d
    x.1.names = d.names ∧ x.1.umask = d.umask ∧
    (∀ k, k ≠ fd → r ≠ .desc k → x.1.open' k = d.open' k) ∧
    (∀ k, (x.1.open' k).map (fun y => (y.file, y.out)) = (d.open' k).map (fun y => (y.file, y.out))) ∧
    (∀ i, (∀ y, d.open' fd = some y → y.file ≠ i) → x.1.files i = d.files i) := by
  intro fuel
  induction fuel with
  | zero => intro r d; exact ⟨rfl, rfl, fun _ _ _ => rfl, fun _ => rfl, fun _ _ => rfl⟩
  | succ fuel ih =>
    intro r d
    have hr := r.read_frame l d
    dsimp only at hr
    rw [copyTo]
    dsimp only
    rcases hrd : r.read l d with ⟨r1, d1, bs, end', bad⟩
    rw [hrd] at hr
    dsimp only at hr ⊢
    obtain ⟨rn, rf, ru, ro, rp, rr⟩ := hr
    have hfile : ∀ i, (∀ y, d.open' fd = some y → y.file ≠ i) → ∀ y, d1.open' fd = some y → y.file ≠ i := by
      intro i hi y hy e
      have := rp fd
      rw [hy] at this
      cases h0 : d.open' fd with
      | none => rw [h0] at this; simp at this
      | some z =>
        rw [h0] at this
        simp only [Option.map_some, Option.some.injEq, Prod.mk.injEq] at this
        exact hi z h0 (by rw [← this.1, e])
    have hrest : ∀ k, r ≠ .desc k → r1 ≠ .desc k := by
      intro k hk
      rcases rr with ⟨_, b, _, h⟩ | h
      · rw [h]; exact fun e => nomatch e
      · rw [h]; exact hk
    have base : d1.names = d.names ∧ d1.umask = d.umask ∧ (∀ k, k ≠ fd → r ≠ .desc k → d1.open' k = d.open' k) ∧
        (∀ k, (d1.open' k).map (fun y => (y.file, y.out)) = (d.open' k).map (fun y => (y.file, y.out))) ∧
        (∀ i, (∀ y, d.open' fd = some y → y.file ≠ i) → d1.files i = d.files i) :=
      ⟨rn, ru, fun k _ hk => ro k hk, rp, fun i _ => by rw [rf]⟩
    by_cases hb : bs ≠ []
    · rw [if_pos hb]
      have hw := d1.write_frame l fd bs
      dsimp only at hw
      rcases hwd : d1.write l fd bs with ⟨d2, n, werr⟩
      rw [hwd] at hw
      dsimp only at hw ⊢
      obtain ⟨wn, wu, wo, wp, wf⟩ := hw
      have base2 : d2.names = d.names ∧ d2.umask = d.umask ∧ (∀ k, k ≠ fd → r ≠ .desc k → d2.open' k = d.open' k) ∧
          (∀ k, (d2.open' k).map (fun y => (y.file, y.out)) = (d.open' k).map (fun y => (y.file, y.out))) ∧
          (∀ i, (∀ y, d.open' fd = some y → y.file ≠ i) → d2.files i = d.files i) :=
        ⟨wn.trans rn, wu.trans ru, fun k hk hr => (wo k hk).trans (ro k hr), fun k => (wp k).trans (rp k),
          fun i hi => (wf i (hfile i hi)).trans (by rw [rf])⟩
      split
      · exact base2
      · split
        · exact base2
        · split
          · exact base2
          · obtain ⟨a, b, c, e, f⟩ := ih r1 d2
            refine ⟨a.trans base2.1, b.trans base2.2.1, fun k hk hr => (c k hk (hrest k hr)).trans (base2.2.2.1 k hk hr),
              fun k => (e k).trans (base2.2.2.2.1 k), fun i hi => (f i ?_).trans (base2.2.2.2.2 i hi)⟩
            intro y hy e
            have := base2.2.2.2.1 fd
            rw [hy] at this
            cases h0 : d.open' fd with
            | none => rw [h0] at this; simp at this
            | some z =>
              rw [h0] at this
              simp only [Option.map_some, Option.some.injEq, Prod.mk.injEq] at this
              exact hi z h0 (by rw [← this.1, e])
    · rw [if_neg hb]
      split
      · exact base
      · split
        · exact base
        · obtain ⟨a, b, c, e, f⟩ := ih r1 d1
          exact ⟨a.trans rn, b.trans ru, fun k hk hr => (c k hk (hrest k hr)).trans (ro k hr),
            fun k => (e k).trans (rp k), fun i hi => (f i (hfile i hi)).trans (by rw [rf])⟩

/-- Copying changes no permissions. -/
theorem copyTo_perm (l : Luck) (fd : Nat) : ∀ (fuel : Nat) (r : Reader) (d : Disk) (i : Nat),
    ((copyTo l fd fuel r d).1.files i).map (·.perm) = (d.files i).map (·.perm) := by
  have hwrite : ∀ (bs : Str) (d : Disk) (i : Nat), ((d.write l fd bs).1.files i).map (·.perm) = (d.files i).map (·.perm) := by
    intro bs d i
    unfold Disk.write
    split
    · rfl
    · rename_i x hx
      split
      · rfl
      · rename_i f hf
        by_cases hi : i = x.file
        · subst hi
          simp only [set_at, hf, Option.map_some]
        · simp only [set_off _ _ hi]
  intro fuel
  induction fuel with
  | zero => intro r d i; rfl
  | succ fuel ih =>
    intro r d i
    rw [copyTo]
    have hr := (r.read_frame l d).2.1
    rcases hrd : r.read l d with ⟨r1, d1, bs, end', bad⟩
    rw [hrd] at hr
    dsimp only at hr ⊢
    rw [← hr]
    by_cases hb : bs ≠ []
    · rw [if_pos hb]
      have hw := hwrite bs d1 i
      rcases hwd : d1.write l fd bs with ⟨d2, n, werr⟩
      rw [hwd] at hw
      dsimp only at hw ⊢
      rw [← hw]
      repeat' split
      all_goals first | rfl | exact ih _ _ _
    · rw [if_neg hb]
      repeat' split
      all_goals first | rfl | exact ih _ _ _

/-- The reader has `rest` left to give, and does not read the file `j`. -/
def Gives (d : Disk) (fd j : Nat) (rest : Str) : Reader → Prop
  | .memory s => s = rest
  | .desc k => k ≠ fd ∧ ∃ x n, d.open' k = some x ∧ x.file ≠ j ∧ d.files x.file = some n ∧ n.data.drop x.pos = rest

/-- One read. -/
theorem Reader.read_gives {l : Luck} {r : Reader} {d : Disk} {fd j : Nat} {rest : Str} (h : Gives d fd j rest r) :
    let x := r.read l d
    (rest = [] → x.2.2.1 = [] ∧ x.2.2.2.1 = !x.2.2.2.2) ∧
    (rest ≠ [] → x.2.2.1 ≠ []) ∧
    (∃ rest', rest = x.2.2.1 ++ rest' ∧ Gives x.2.1 fd j rest' x.1 ∧ (x.2.2.2.1 = true → rest' = [])) ∧
    ((∀ t, l.fails t = false) → x.2.2.2.2 = false) := by
  dsimp only
  unfold Reader.read
  cases r with
  | memory s =>
    have h : s = rest := h
    subst h
    dsimp only
    split
    · rename_i e
      subst e
      exact ⟨fun _ => ⟨rfl, rfl⟩, fun h => absurd rfl h, ⟨[], rfl, rfl, fun _ => rfl⟩, fun _ => rfl⟩
    · rename_i e
      refine ⟨fun h => absurd h e, fun _ => ?_, ⟨s.drop _, (List.take_append_drop _ _).symm, rfl, fun hend => ?_⟩, fun _ => rfl⟩
      · intro h
        have := congrArg List.length h
        have h0 : 0 < s.length := List.length_pos_iff.2 e
        simp only [List.length_take, List.length_nil] at this
        omega
      · simp only [Bool.and_eq_true, decide_eq_true_eq] at hend
        rw [hend.1.1]
        exact List.drop_length
  | desc k =>
    obtain ⟨hk, x, n, hx, hj, hn, hrest⟩ := h
    have hleft : d.left k = rest := by simp [Disk.left, hx, hn, hrest]
    dsimp only
    rw [hleft]
    split
    · rename_i e
      subst e
      exact ⟨fun _ => ⟨rfl, rfl⟩, fun h => absurd rfl h, ⟨[], rfl, ⟨hk, x, n, hx, hj, hn, hrest⟩, fun _ => rfl⟩, fun hf => hf _⟩
    · rename_i e
      rw [hx]
      refine ⟨fun h => absurd h e, fun _ => ?_, ⟨rest.drop _, (List.take_append_drop _ _).symm, ?_, fun hend => ?_⟩, fun hf => hf _⟩
      · intro h
        have := congrArg List.length h
        have h0 : 0 < rest.length := List.length_pos_iff.2 e
        simp only [List.length_take, List.length_nil] at this
        omega
      · refine ⟨hk, _, n, set_at _ _ _, hj, hn, ?_⟩
        rw [← hrest, List.drop_drop]
      · simp only [Bool.and_eq_true, decide_eq_true_eq] at hend
        rw [hend.1.1]
        exact List.drop_length

/-- One write at the end of the file. -/
theorem Disk.write_end {l : Luck} {fd : Nat} {bs : Str} {d : Disk} {j : Nat} {out : Bool} {n : Inode}
    (ho : d.open' fd = some { file := j, pos := n.data.length, out := out }) (hn : d.files j = some n) :
    let x := d.write l fd bs
    x.2.1 ≤ bs.length ∧
    x.1.files j = some { n with data := n.data ++ bs.take x.2.1 } ∧
    x.1.open' fd = some { file := j, pos := (n.data ++ bs.take x.2.1).length, out := out } ∧
    ((∀ t, l.fails t = false) → x.2.1 = bs.length ∧ x.2.2 = false) := by
  dsimp only
  unfold Disk.write
  rw [ho]
  dsimp only
  rw [hn]
  dsimp only
  have hle : (if l.fails d.time then min bs.length (l.moves d.time) else bs.length) ≤ bs.length := by
    split <;> omega
  refine ⟨hle, ?_, ?_, fun hf => ?_⟩
  · rw [set_at]
    have h2 : n.data.drop (n.data.length + if l.fails d.time then min bs.length (l.moves d.time) else bs.length) = [] :=
      List.drop_eq_nil_of_le (by omega)
    rw [h2, List.take_length, Nat.sub_self]
    simp
  · rw [set_at]
    simp only [List.length_append, List.length_take]
    congr 2
    omega
  · rw [hf]
    exact ⟨rfl, rfl⟩

/-- Copying appends a beginning of what there is to read to the file, all of it if there is no error; without
failures there is no error. The fuel is not used up. -/
theorem copyTo_spec {l : Luck} {fd j : Nat} {out : Bool} : ∀ (fuel : Nat) (rest : Str) (r : Reader) (d : Disk) (n : Inode),
    rest.length < fuel → Gives d fd j rest r →
    d.open' fd = some { file := j, pos := n.data.length, out := out } → d.files j = some n →
    ∃ got, got <+: rest ∧ (copyTo l fd fuel r d).1.files j = some { n with data := n.data ++ got } ∧
      ((copyTo l fd fuel r d).2 = none → got = rest) ∧
      ((∀ t, l.fails t = false) → (copyTo l fd fuel r d).2 = none) ∧
      (∀ more, copyTo l fd (fuel + more) r d = copyTo l fd fuel r d) := by
  intro fuel
  induction fuel with
  | zero => intro rest r d n h; exact absurd h (Nat.not_lt_zero _)
  | succ fuel ih =>
    intro rest r d n hlen hg ho hn
    have hread := Reader.read_gives (l := l) hg
    have hframe := r.read_frame l d
    have hfuel : ∀ more, fuel + 1 + more = (fuel + more) + 1 := fun more => by omega
    simp only [hfuel, copyTo]
    rcases hrd : r.read l d with ⟨r1, d1, bs, end', bad⟩
    rw [hrd] at hread hframe
    dsimp only at hread hframe ⊢
    obtain ⟨hnil, hne, ⟨rest', hsplit, hg1, hend⟩, hok⟩ := hread
    obtain ⟨rn, rf, ru, ro, rp, rr⟩ := hframe
    have ho1 : d1.open' fd = some { file := j, pos := n.data.length, out := out } := by
      rw [ro fd, ho]
      intro e
      rw [e] at hg
      exact hg.1 rfl
    have hn1 : d1.files j = some n := by rw [rf]; exact hn
    by_cases hb : bs ≠ []
    · simp only [if_pos hb]
      have hw := Disk.write_end (l := l) (bs := bs) ho1 hn1
      have hwf := d1.write_frame l fd bs
      rcases hwd : d1.write l fd bs with ⟨d2, k, werr⟩
      rw [hwd] at hw hwf
      dsimp only at hw hwf ⊢
      obtain ⟨hk, hf2, ho2, hok2⟩ := hw
      obtain ⟨wn, wu, wo, wp, wf⟩ := hwf
      have hpre : bs.take k <+: rest := by
        rw [hsplit]
        exact (List.take_prefix _ _).trans (List.prefix_append _ _)
      by_cases hwe : werr = true ∨ k ≠ bs.length
      · simp only [if_pos hwe]
        refine ⟨bs.take k, hpre, hf2, fun h => (nomatch h), fun hf => ?_, fun _ => by first | rfl | trivial⟩
        obtain ⟨h1, h2⟩ := hok2 hf
        rcases hwe with e | e
        · rw [h2] at e; cases e
        · exact absurd h1 e
      · simp only [if_neg hwe]
        have hk' : k = bs.length := Classical.byContradiction fun e => hwe (.inr e)
        rw [hk', List.take_length] at hf2 ho2
        by_cases hbad : bad = true
        · simp only [if_pos hbad]
          refine ⟨bs, by rw [hsplit]; exact List.prefix_append _ _, hf2, fun h => (nomatch h), fun hf => ?_, fun _ => by first | rfl | trivial⟩
          rw [hok hf] at hbad
          cases hbad
        · simp only [if_neg hbad]
          by_cases he : end' = true
          · simp only [if_pos he]
            have := hend he
            rw [this, List.append_nil] at hsplit
            exact ⟨bs, by rw [hsplit]; exact List.prefix_rfl, hf2, fun _ => hsplit.symm, fun _ => by first | rfl | trivial, fun _ => by first | rfl | trivial⟩
          · simp only [if_neg he]
            have hg2 : Gives d2 fd j rest' r1 := by
              cases r1 with
              | memory s => exact hg1
              | desc q =>
                obtain ⟨hq, x, m, hx, hj, hm, hr⟩ := hg1
                refine ⟨hq, x, m, by rw [wo q hq]; exact hx, hj, ?_, hr⟩
                rw [wf x.file (fun y hy => ?_)]
                · exact hm
                · rw [ho1] at hy
                  cases hy
                  exact fun e => hj e.symm
            have hl : rest'.length < fuel := by
              have h1 := congrArg List.length hsplit
              rw [List.length_append] at h1
              have h2 : 0 < bs.length := List.length_pos_iff.2 hb
              omega
            obtain ⟨got, hgot, hfin, hnone, hsm, hmore⟩ := ih rest' r1 d2 { n with data := n.data ++ bs } hl hg2 ho2 hf2
            refine ⟨bs ++ got, by rw [hsplit]; exact (List.prefix_append_right_inj _).2 hgot, ?_, fun h => ?_, hsm, hmore⟩
            · rw [hfin, List.append_assoc]
            · rw [hnone h, hsplit]
    · simp only [if_neg hb]
      have hb' : bs = [] := Classical.byContradiction hb
      have hr0 : rest = [] := Classical.byContradiction fun e => hne e hb'
      have he := (hnil hr0).2
      by_cases hbad : bad = true
      · simp only [if_pos hbad]
        refine ⟨[], List.nil_prefix, by rw [hn1, List.append_nil], fun h => (nomatch h), fun hf => ?_, fun _ => by first | rfl | trivial⟩
        rw [hok hf] at hbad
        cases hbad
      · simp only [if_neg hbad]
        have : end' = true := by rw [he]; cases bad <;> simp_all
        simp only [if_pos this]
        exact ⟨[], List.nil_prefix, by rw [hn1, List.append_nil], fun _ => hr0.symm, fun _ => by first | rfl | trivial, fun _ => by first | rfl | trivial⟩

/-- The permissions of the file that `dst` leads to once it is open: those it had, or those of a new file. -/
def PermAt (d : Disk) (dst : Str) (i p : Nat) : Prop :=
  (d.names dst = some i ∧ ∃ n, d.files i = some n ∧ p = n.perm) ∨
  (d.names dst = none ∧ d.files i = none ∧ p = 0o600 &&& (0o777 ^^^ (d.umask &&& 0o777)))

/-- What `Open` leads to. -/
theorem Upload.open_cases (l : Luck) (u : Upload) (d : Disk) :
    (∃ d1, u.open' l d = (d1, none) ∧ d1.names = d.names ∧ d1.files = d.files ∧ d1.open' = d.open') ∨
    (∃ s, u = .memory s ∧ u.open' l d = (d, some (.memory s))) ∨
    (∃ path q n k d1, u = .temp path ∧ u.open' l d = (d1, some (.desc k)) ∧ d.names path = some q ∧ d.files q = some n ∧
      d.open' k = none ∧ d1.names = d.names ∧ d1.files = d.files ∧ d1.umask = d.umask ∧
      d1.open' = d.open'.set k { file := q, pos := 0, out := false }) := by
  cases u with
  | memory s => exact .inr (.inl ⟨s, rfl, rfl⟩)
  | temp path =>
    simp only [Upload.open', Disk.openRead]
    cases hq : d.names path with
    | none => exact .inl ⟨_, rfl, rfl, rfl, rfl⟩
    | some q =>
      dsimp only
      by_cases hc : l.openFails d.time = true ∨ d.open' (l.pick d.time) ≠ none ∨ d.files q = none
      · rw [if_pos hc]
        exact .inl ⟨_, rfl, rfl, rfl, rfl⟩
      · rw [if_neg hc]
        have h1 : d.open' (l.pick d.time) = none := Classical.byContradiction fun e => hc (.inr (.inl e))
        cases hn : d.files q with
        | none => exact absurd (.inr (.inr hn)) hc
        | some n => exact .inr (.inr ⟨path, q, n, _, _, rfl, rfl, hq, hn, h1, rfl, rfl, rfl, rfl⟩)

/-- What opening the target leads to. -/
theorem Disk.openTrunc_cases (l : Luck) (dst : Str) (d : Disk) :
    (∃ d1, d.openTrunc l dst 0o600 = (d1, none) ∧ d1.names = d.names ∧ d1.files = d.files ∧ d1.open' = d.open') ∨
    (∃ i p fd d1, d.openTrunc l dst 0o600 = (d1, some fd) ∧ OnlyAt dst d d1 ∧ d1.names dst = some i ∧
      d1.files i = some { data := [], perm := p } ∧ PermAt d dst i p ∧ d.open' fd = none ∧
      d1.open' = d.open'.set fd { file := i, pos := 0, out := true } ∧
      (∀ j, j ≠ i → d1.files j = d.files j)) := by
  unfold Disk.openTrunc
  dsimp only
  by_cases hc : l.openFails d.time = true ∨ d.open' (l.pick d.time) ≠ none
  · rw [if_pos hc]
    exact .inl ⟨_, rfl, rfl, rfl, rfl⟩
  · rw [if_neg hc]
    have h1 : d.open' (l.pick d.time) = none := Classical.byContradiction fun e => hc (.inr e)
    cases hi : d.names dst with
    | some i =>
      dsimp only
      cases hn : d.files i with
      | none => exact .inl ⟨_, rfl, rfl, rfl, rfl⟩
      | some n =>
        refine .inr ⟨i, n.perm, _, _, rfl, ⟨fun _ _ => rfl, fun _ h => ?_, fun j hj _ => ?_⟩, hi, set_at _ _ _,
          .inl ⟨hi, n, hn, rfl⟩, h1, rfl, fun j hj => set_off _ _ hj⟩
        · exact h
        · exact set_off _ _ (fun e => hj (by rw [hi, e]))
    | none =>
      dsimp only
      cases hn : d.files (l.pick (d.time + 1)) with
      | some n =>
        rw [if_pos (by simp)]
        exact .inl ⟨_, rfl, rfl, rfl, rfl⟩
      | none =>
        rw [if_neg (by simp)]
        refine .inr ⟨_, _, _, _, rfl, ⟨fun p hp => set_off _ _ hp, fun i h => ?_, fun j _ hj => ?_⟩,
          set_at _ _ _, set_at _ _ _, .inr ⟨hi, hn, rfl⟩, h1, rfl, fun j hj => set_off _ _ hj⟩
        · rw [hi] at h; cases h
        · exact set_off _ _ (fun e => hj (by rw [e, hn]))

/-- Everything is open: the disk `d2`, read from `src`, written to `fd`. -/
structure Started (u : Upload) (dst : Str) (d d2 : Disk) (src : Reader) (fd i p : Nat) : Prop where
  only : OnlyAt dst d d2
  name : d2.names dst = some i
  empty : d2.files i = some { data := [], perm := p }
  perm : PermAt d dst i p
  unused : d.open' fd = none
  target : d2.open' fd = some { file := i, pos := 0, out := true }
  others : ∀ k, k ≠ fd → src ≠ .desc k → d2.open' k = d.open' k
  files : ∀ j, j ≠ i → d2.files j = d.files j
  source : (∃ s, u = .memory s ∧ src = .memory s) ∨
    ∃ path q n k, u = .temp path ∧ src = .desc k ∧ d.names path = some q ∧ d.files q = some n ∧ d.open' k = none ∧
      k ≠ fd ∧ d2.open' k = some { file := q, pos := 0, out := false }

/-- The three ways `SaveUploadedFile` goes. -/
theorem save_cases (more : Nat) (l : Luck) (u : Upload) (dst : Str) (d : Disk) :
    (∃ d', (u.open' l d).2 = none ∧ saveUploadedFileF more l u dst d = (d', some .source) ∧ d'.names = d.names ∧ d'.files = d.files ∧ d'.open' = d.open') ∨
    (∃ d', ((u.open' l d).1.openTrunc l dst 0o600).2 = none ∧ saveUploadedFileF more l u dst d = (d', some .target) ∧ d'.names = d.names ∧ d'.files = d.files ∧ d'.open' = d.open') ∨
    (∃ d2 src fd i p, Started u dst d d2 src fd i p ∧
      (∃ d1, u.open' l d = (d1, some src) ∧ d1.openTrunc l dst 0o600 = (d2, some fd)) ∧
      saveUploadedFileF more l u dst d =
        (src.close l ((copyTo l fd (src.size d2 + 1 + more) src d2).1.close l fd), (copyTo l fd (src.size d2 + 1 + more) src d2).2)) := by
  unfold saveUploadedFileF
  rcases u.open_cases l d with ⟨d1, h, hn, hf, ho⟩ | ⟨s, hu, h⟩ | ⟨path, q, n, k, d1, hu, h, hq, hqn, hk, hn, hf, hum, ho⟩
  · rw [h]
    exact .inl ⟨d1, rfl, rfl, hn, hf, ho⟩
  · rw [h]
    dsimp only
    rcases d.openTrunc_cases l dst with ⟨d2, h2, hn2, hf2, ho2⟩ | ⟨i, p, fd, d2, h2, hon, hn2, hf2, hp, hu2, ho2, hfo⟩
    · rw [h2]
      exact .inr (.inl ⟨d2, rfl, rfl, hn2, hf2, ho2⟩)
    · rw [h2]
      refine .inr (.inr ⟨d2, _, fd, i, p, ⟨hon, hn2, hf2, hp, hu2, ?_, fun k hk _ => ?_, hfo, .inl ⟨s, hu, rfl⟩⟩, ⟨d, rfl, h2⟩, rfl⟩)
      · rw [ho2]; exact set_at _ _ _
      · rw [ho2]; exact set_off _ _ hk
  · rw [h]
    dsimp only
    rcases d1.openTrunc_cases l dst with ⟨d2, h2, hn2, hf2, ho2⟩ | ⟨i, p, fd, d2, h2, hon, hn2, hf2, hp, hu2, ho2, hfo⟩
    · rw [h2]
      refine .inr (.inl ⟨_, rfl, rfl, ?_, ?_, ?_⟩)
      · exact (Disk.close_names _ _ _).trans (hn2.trans hn)
      · have : (d2.close l k).files = d2.files := Disk.close_reading l (fun x hx => by
          rw [ho2, ho, set_at] at hx
          cases hx
          rfl)
        exact this.trans (hf2.trans hf)
      · funext j
        have := Disk.close_open l k d2 j
        show (d2.close l k).open' j = _
        rw [this, ho2, ho]
        by_cases hj : j = k
        · rw [if_pos hj, hj, hk]
        · rw [if_neg hj, set_off _ _ hj]
    · rw [h2]
      have hkfd : k ≠ fd := by
        intro e
        rw [ho, ← e, set_at] at hu2
        cases hu2
      refine .inr (.inr ⟨d2, _, fd, i, p, ⟨⟨?_, ?_, ?_⟩, hn2, hf2, ?_, ?_, ?_, ?_, ?_, .inr ⟨path, q, n, k, hu, rfl, hq, hqn, hk, hkfd, ?_⟩⟩, ⟨d1, rfl, h2⟩, rfl⟩)
      · intro p hp
        rw [hon.names p hp, hn]
      · intro i hi
        exact hon.stays i (by rw [hn]; exact hi)
      · intro j hj hj2
        rw [hon.files j (by rw [hn]; exact hj) (by rw [hf]; exact hj2), hf]
      · simpa only [PermAt, hn, hf, hum] using hp
      · rw [ho, set_off _ _ (fun e => hkfd e.symm)] at hu2
        exact hu2
      · rw [ho2]; exact set_at _ _ _
      · intro j hj hjk
        rw [ho2, set_off _ _ hj, ho, set_off _ _ (fun e => hjk (by rw [e]))]
      · intro j hj
        rw [hfo j hj, hf]
      · rw [ho2, set_off _ _ hkfd, ho, set_at]

end Water
