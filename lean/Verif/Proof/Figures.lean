import Verif.Model.Figures
/-!
# The runtime figures: the invariant
-/
namespace Distclus
namespace Fig

/-- What a goroutine holds. -/
inductive Mode where
  /-- no lock -/
  | out
  /-- the lock for reading -/
  | rd
  /-- the lock for writing; the map of the controller is up to date -/
  | wr
  /-- the lock for writing; the counters have changed -/
  | wrI
  /-- and the map of the controller, up to date, is at hand -/
  | cur (w : Bool)
  /-- and a map nobody else has is at hand -/
  | fresh (w : Bool)
  /-- which has become the map of the controller -/
  | pub (w sync : Bool)
deriving DecidableEq, Repr

/-- The effect of an action, when it is allowed; `p`: it is allowed to write in the map of the
controller. `w`: a write is in progress. -/
def Mode.next (p : Bool) : Mode → Instr → Option Mode
  | .out, .lock => some .wr
  | .out, .rlock => some .rd
  | .out, .read _ => some .out
  | .rd, .load => some .rd
  | .rd, .runlock => some .out
  | .wr, .incPushed => some .wr
  | .wr, .incIter => some .wrI
  | .wr, .zero => some .wrI
  | .wr, .load => if p then some (.cur false) else none
  | .wrI, .fresh => some (.fresh false)
  | .cur false, .writeBegin k v => if k = .iterations → v = .iterations then some (.cur true) else none
  | .cur true, .writeEnd k v => if k = .iterations → v = .iterations then some (.cur false) else none
  | .cur false, .unlock => some .out
  | .fresh false, .writeBegin _ _ => some (.fresh true)
  | .fresh true, .writeEnd _ _ => some (.fresh false)
  | .fresh false, .publish => some (.pub false false)
  | .pub false b, .writeBegin _ _ => some (.pub true b)
  | .pub true b, .writeEnd k v =>
    if k = .iterations then (if v = .iterations then some (.pub false true) else none)
    else some (.pub false b)
  | .pub false true, .unlock => some .out
  | _, _ => none

/-- The actions `c` are allowed from the mode `m`, and end without lock. -/
def Fits (p : Bool) : Mode → List Instr → Prop
  | m, [] => m = .out
  | m, i :: c => ∃ m', m.next p i = some m' ∧ Fits p m' c

theorem fits_reads {p : Bool} : ∀ ks : List Key, Fits p .out (ks.map .read)
  | [] => rfl
  | _ :: ks => ⟨.out, rfl, fits_reads ks⟩

theorem fits_own {p : Bool} (c : List Instr) (h : Fits p (.fresh false) c) :
    ∀ own : List (Nat × Nat), Fits p (.fresh false) ((own.flatMap fun p => assign (.other p.1) (.val p.2)) ++ c)
  | [] => h
  | _ :: own => ⟨.fresh true, rfl, .fresh false, rfl, fits_own c h own⟩

/-- Does the operation write in the map which the others may have? -/
def patches : Op → Bool
  | .push _ | .recover _ => true
  | _ => false

/-- Every operation behaves. -/
theorem fits_code {p : Bool} : ∀ op, (patches op = true → p = true) → Fits p .out (code op)
  | .push _, h => by
    obtain rfl := h rfl
    exact ⟨.wr, rfl, .wr, rfl, .cur false, rfl, .cur true, rfl, .cur false, rfl, .cur true, rfl,
      .cur false, rfl, .cur true, rfl, .cur false, rfl, .out, rfl, rfl⟩
  | .finished, _ => ⟨.rd, rfl, .rd, rfl, .out, rfl, .out, rfl, .out, rfl, rfl⟩
  | .save own d now, _ => by
    refine ⟨.wr, rfl, .wrI, rfl, .fresh false, rfl, ?_⟩
    have : Fits p (.fresh false) (assign .duration (.val d) ++ [.publish] ++ update now ++ [.unlock]) :=
      ⟨.fresh true, rfl, .fresh false, rfl, .pub false false, rfl, .pub true false, rfl, .pub false true, rfl,
        .pub true true, rfl, .pub false true, rfl, .pub true true, rfl, .pub false true, rfl, .out, rfl, rfl⟩
    have h := fits_own _ this own
    have e : ∀ a b c d e : List Instr, a ++ b ++ c ++ d ++ e = a ++ (b ++ c ++ d ++ e) := by
      intro a b c d e; simp only [List.append_assoc]
    rw [← e] at h
    exact h
  | .recover _, h => by
    obtain rfl := h rfl
    exact ⟨.wr, rfl, .cur false, rfl, .cur true, rfl, .cur false, rfl, .out, rfl, rfl⟩
  | .reset, _ => ⟨.wr, rfl, .wrI, rfl, .fresh false, rfl, .pub false false, rfl, .pub true false, rfl,
      .pub false true, rfl, .pub true true, rfl, .pub false true, rfl, .pub true true, rfl, .pub false true, rfl,
      .out, rfl, rfl⟩
  | .figures ks, _ => ⟨.rd, rfl, .rd, rfl, .out, rfl, fits_reads ks⟩

variable {s s' : State} {t u : Nat} {p : Bool}

/-- The mode of the holder of the lock for writing says what the rest looks like. -/
def Excl (s : State) (r : Nat) : Mode → Prop
  | .wr => s.cur + 1 = s.maps.length ∧ s.writing = [] ∧ s.map s.cur .iterations = s.iterations
  | .wrI => s.cur + 1 = s.maps.length ∧ s.writing = []
  | .cur w => s.cur + 1 = s.maps.length ∧ r = s.cur ∧ s.writing = (if w then [s.cur] else []) ∧
      s.map s.cur .iterations = s.iterations
  | .fresh w => s.cur + 1 < s.maps.length ∧ r + 1 = s.maps.length ∧ s.writing = (if w then [r] else [])
  | .pub w sync => s.cur + 1 = s.maps.length ∧ r = s.cur ∧ s.writing = (if w then [s.cur] else []) ∧
      (sync = true → s.map s.cur .iterations = s.iterations)
  | _ => False

/-- What is at hand of goroutine `t`. -/
def Holds (s : State) (t : Nat) : Mode → Prop
  | .out => s.writer ≠ some t ∧ t ∉ s.readers
  | .rd => s.writer ≠ some t ∧ t ∈ s.readers
  | m => s.writer = some t ∧ t ∉ s.readers ∧ Excl s (s.thr t).reg m

theorem Excl.congr {r : Nat} {m : Mode} (h : Excl s r m) (h1 : s'.cur = s.cur) (h2 : s'.maps = s.maps)
    (h3 : s'.writing = s.writing) (h5 : s'.iterations = s.iterations) : Excl s' r m := by
  have hmap : ∀ i, s'.map i = s.map i := by intro i; unfold State.map; rw [h2]
  cases m <;> simp only [Excl, hmap, h1, h2, h3, h5] at h ⊢ <;> exact h

/-- The invariant. -/
structure Inv (p : Bool) (s : State) (m : Nat → Mode) : Prop where
  fits : ∀ t, Fits p (m t) (s.thr t).code
  holds : ∀ t, Holds s t (m t)
  nodup : s.readers.Nodup
  excl : s.writer ≠ none → s.readers = []
  idle : s.writer = none → s.cur + 1 = s.maps.length ∧ s.writing = [] ∧
    s.map s.cur .iterations = s.iterations
  old : ∀ t, s.writer ≠ some t → (s.thr t).reg ≤ s.cur
  older : ∀ t u w b, t ≠ u → m u = .pub w b → (s.thr t).reg < s.cur
  patch : ∀ t w, m t = .cur w → p = true

/-- The modes with the lock for writing. -/
def Mode.excl : Mode → Bool
  | .out | .rd => false
  | _ => true

theorem Holds.writer {m : Mode} (h : Holds s t m) (he : m.excl = true) :
    s.writer = some t ∧ t ∉ s.readers ∧ Excl s (s.thr t).reg m := by
  cases m <;> first | (cases he; done) | exact h

theorem Holds.not {m : Mode} (h : Holds s t m) (he : s.writer ≠ some t) : m = .out ∨ m = .rd := by
  cases m <;> first | exact .inl rfl | exact .inr rfl | exact absurd h.1 he

/-- The modes after the goroutine `t` has moved. -/
def upd (m : Nat → Mode) (t : Nat) (x : Mode) : Nat → Mode := fun u => if u = t then x else m u

theorem set_thr (s : State) (t : Nat) (x : Thread) (u : Nat) :
    (s.set t x).thr u = if u = t then x else s.thr u := rfl

/-- A goroutine without the lock for writing moves; it changes at most the readers. -/
theorem Inv.shared {m : Nat → Mode} (h : Inv p s m) {s1 : State} {x : Thread} {m' : Mode}
    (h1 : s1.cur = s.cur) (h2 : s1.maps = s.maps) (h3 : s1.writing = s.writing) (h4 : s1.writer = s.writer)
    (h5 : s1.iterations = s.iterations) (h6 : s1.thr = s.thr)
    (hr : ∀ u, u ≠ t → (u ∈ s1.readers ↔ u ∈ s.readers)) (hn : s1.readers.Nodup)
    (hw : s.writer ≠ none → s1.readers = []) (hm : m' = .out ∨ m' = .rd)
    (ht : Holds (s1.set t x) t m') (hf : Fits p m' x.code)
    (hx : x.reg = (s.thr t).reg ∨ (x.reg = s.cur ∧ s.writer = none)) (hmt : (m t).excl = false) :
    Inv p (s1.set t x) (upd m t m') := by
  have hmap : ∀ i, (s1.set t x).map i = s.map i := by intro i; show s1.maps.getD _ _ = _; rw [h2]; rfl
  refine ⟨?_, ?_, hn, ?_, ?_, ?_, ?_, ?_⟩
  · intro u
    rw [set_thr, upd]; split
    · exact hf
    · rw [h6]; exact h.fits u
  · intro u
    unfold upd
    split
    · subst u; exact ht
    · rename_i hu
      have := h.holds u
      cases he : (m u).excl with
      | false =>
        cases hmu : m u <;> rw [hmu] at this he <;> first | (cases he; done) | skip
        · exact ⟨by show s1.writer ≠ _; rw [h4]; exact this.1, fun h' => this.2 ((hr u hu).1 h')⟩
        · exact ⟨by show s1.writer ≠ _; rw [h4]; exact this.1, (hr u hu).2 this.2⟩
      | true =>
        obtain ⟨a, b, c⟩ := this.writer he
        have hE : Excl (s1.set t x) ((s1.set t x).thr u).reg (m u) := by
          rw [set_thr, if_neg hu, h6]
          exact c.congr h1 h2 h3 h5
        have : s1.writer = some u ∧ u ∉ s1.readers := ⟨h4.trans a, fun h' => b ((hr u hu).1 h')⟩
        cases hmu : m u <;> rw [hmu] at he hE <;> first | (cases he; done) | exact ⟨this.1, this.2, hE⟩
  · intro hw'
    exact hw (fun e => hw' (h4.trans e))
  · intro hw'
    have := h.idle (h4.symm.trans hw')
    rw [hmap]
    simp only [State.set, h1, h2, h3, h5]
    exact this
  · intro u hu
    rw [set_thr]
    have hu' : s.writer ≠ some u := fun e => hu (h4.trans e)
    show _ ≤ s1.cur
    rw [h1]
    split
    · subst u
      rcases hx with e | e
      · rw [e]; exact h.old t hu'
      · rw [e.1]; exact Nat.le_refl _
    · rw [h6]; exact h.old u hu'
  · intro a u w b hne hmu
    show _ < s1.cur
    rw [h1, set_thr]
    have hut : u ≠ t := by
      rintro rfl
      rw [upd, if_pos rfl] at hmu
      rcases hm with e | e <;> rw [e] at hmu <;> cases hmu
    rw [upd, if_neg hut] at hmu
    split
    · subst a
      rcases hx with e | e
      · rw [e]; exact h.older t u w b hne hmu
      · exfalso
        have := h.holds u
        rw [hmu] at this
        have := this.1
        rw [e.2] at this; cases this
    · rw [h6]; exact h.older a u w b hne hmu
  · intro u w hmu
    unfold upd at hmu
    split at hmu
    · rcases hm with e | e <;> rw [e] at hmu <;> cases hmu
    · exact h.patch u w hmu

/-- The goroutine with the lock for writing moves. -/
theorem Inv.alone {m : Nat → Mode} (h : Inv p s m) {s1 : State} {x : Thread} {m' : Mode}
    (h0 : s.writer = some t ∨ (s.writer = none ∧ s.readers = []))
    (hr : s1.readers = []) (h6 : s1.thr = s.thr) (hw : s1.writer = none ∨ s1.writer = some t)
    (ht : Holds (s1.set t x) t m') (hf : Fits p m' x.code)
    (hi : s1.writer = none → s1.cur + 1 = s1.maps.length ∧ s1.writing = [] ∧
      s1.map s1.cur .iterations = s1.iterations ∧ x.reg ≤ s1.cur)
    (hc : s.cur ≤ s1.cur) (hp : ∀ w b, m' = .pub w b → s.cur < s1.cur ∨ (s1.cur = s.cur ∧ ∃ w b, m t = .pub w b))
    (hq : ∀ w, m' = .cur w → p = true ∨ ∃ w, m t = .cur w := by rintro _ ⟨⟩) :
    Inv p (s1.set t x) (upd m t m') := by
  have ho : ∀ u, u ≠ t → s.writer ≠ some u := by
    intro u hu e
    rcases h0 with h0 | h0
    · rw [h0] at e; cases e; exact hu rfl
    · rw [h0.1] at e; cases e
  have hrd : s.readers = [] := by
    rcases h0 with h0 | h0
    · exact h.excl (by rw [h0]; rintro ⟨⟩)
    · exact h0.2
  have ho' : ∀ u, u ≠ t → m u = .out := by
    intro u hu
    rcases (h.holds u).not (ho u hu) with e | e
    · exact e
    · have := h.holds u
      rw [e] at this
      have := this.2
      rw [hrd] at this; cases this
  have hwu : ∀ u, u ≠ t → s1.writer ≠ some u := by
    intro u hu e
    rcases hw with h' | h' <;> rw [h'] at e <;> cases e
    exact hu rfl
  refine ⟨?_, ?_, ?_, ?_, ?_, ?_, ?_, ?_⟩
  · intro u
    rw [set_thr, upd]; split
    · exact hf
    · rw [h6]; exact h.fits u
  · intro u
    unfold upd
    split
    · subst u; exact ht
    · rename_i hu
      rw [ho' u hu]
      exact ⟨hwu u hu, by show u ∉ s1.readers; rw [hr]; exact List.not_mem_nil⟩
  · show s1.readers.Nodup
    rw [hr]; exact List.nodup_nil
  · intro _; exact hr
  · intro e
    obtain ⟨a, b, c, _⟩ := hi e
    exact ⟨a, b, c⟩
  · intro u hu
    rw [set_thr]
    split
    · subst u
      rcases hw with e | e
      · exact (hi e).2.2.2
      · exact absurd e hu
    · rename_i hne
      rw [h6]; exact Nat.le_trans (h.old u (ho u hne)) hc
  · intro a u w b hne hmu
    by_cases hut : u = t
    · subst u
      rw [upd, if_pos rfl] at hmu
      rw [set_thr, if_neg hne, h6]
      show _ < s1.cur
      rcases hp _ _ hmu with e | ⟨e, w', b', e'⟩
      · exact Nat.lt_of_le_of_lt (h.old a (ho a hne)) e
      · rw [e]; exact h.older a t w' b' hne e'
    · rw [upd, if_neg hut, ho' u hut] at hmu; cases hmu
  · intro u w hmu
    unfold upd at hmu
    split at hmu
    · rcases hq w hmu with e | ⟨w', e⟩
      · exact e
      · exact h.patch t w' e
    · exact h.patch u w hmu

theorem map_set_eq {i : Nat} (hi : i < s.maps.length) (f : Map) (s1 : State)
    (h : s1.maps = s.maps.set i f) : s1.map i = f := by
  unfold State.map; rw [h]; simp [List.getD, hi]

theorem map_set_ne {i j : Nat} (hj : j ≠ i) (f : Map) (s1 : State)
    (h : s1.maps = s.maps.set i f) : s1.map j = s.map j := by
  unfold State.map; rw [h]; simp [List.getD, List.getElem?_set_ne (Ne.symm hj)]

theorem map_append {j : Nat} (hj : j < s.maps.length) (f : Map) (s1 : State)
    (h : s1.maps = s.maps ++ [f]) : s1.map j = s.map j := by
  unfold State.map; rw [h]; simp [List.getD, List.getElem?_append_left hj]

/-- The invariant holds at the beginning. -/
theorem Inv.start : Inv p new fun _ => .out :=
  ⟨fun _ => rfl, fun _ => ⟨by rintro ⟨⟩, List.not_mem_nil⟩, List.nodup_nil, fun _ => rfl,
    fun _ => ⟨rfl, rfl, rfl⟩, fun _ _ => Nat.le_refl _, (fun _ _ _ _ _ h => by cases h), (fun _ _ h => by cases h)⟩

/-- No write begins while another is in progress. -/
theorem Inv.noWrite {m : Nat → Mode} (h : Inv p s m) {k : Key} {v : Src} {c : List Instr}
    (hc : (s.thr t).code = .writeBegin k v :: c) : (s.thr t).reg ∉ s.writing := by
  have hf := h.fits t
  rw [hc] at hf
  obtain ⟨m', h1, _⟩ := hf
  have hh := h.holds t
  cases hm : m t with
  | cur w => rw [hm] at h1 hh; cases w <;> first | (cases h1; done) | (obtain ⟨_, _, hE⟩ := hh; rw [hE.2.2.1]; simp)
  | fresh w => rw [hm] at h1 hh; cases w <;> first | (cases h1; done) | (obtain ⟨_, _, hE⟩ := hh; rw [hE.2.2]; simp)
  | pub w b => rw [hm] at h1 hh; cases w <;> first | (cases h1; done) | (obtain ⟨_, _, hE⟩ := hh; rw [hE.2.2.1]; simp)
  | _ => rw [hm] at h1; cases h1

/-- The invariant is kept. -/
theorem Inv.step {m : Nat → Mode} (h : Inv p s m) {a : Act} (hs : s.step a = some s')
    (ha : ∀ t op, a = .start t op → patches op = true → p = true) :
    ∃ m', Inv p s' m' := by
  cases a with
  | start t op =>
    simp only [State.step] at hs
    split at hs
    · rename_i hh
      cases hs
      have hf := h.fits t
      rw [hh.2] at hf
      have hm : m t = .out := by
        cases hm : m t <;> rw [hm] at hf <;> first | rfl | (cases hf; done)
      have ht := h.holds t
      rw [hm] at ht
      exact ⟨_, h.shared (s1 := s) (m' := .out) rfl rfl rfl rfl rfl rfl (fun _ _ => Iff.rfl) h.nodup h.excl (.inl rfl) ht
        (fits_code op (ha t op rfl)) (.inl rfl) (by rw [hm]; rfl)⟩
    · cases hs
  | go t =>
    simp only [State.step] at hs
    split at hs
    · rename_i hfa
      cases hc : (s.thr t).code with
      | nil => rw [hc] at hs; cases hs
      | cons i c =>
        rw [hc] at hs
        simp only at hs
        have hf := h.fits t
        have hh := h.holds t
        rw [hc] at hf
        obtain ⟨m', h1, hf⟩ := hf
        have hnil : ∀ (s1 : State) x, s1.readers = [] → t ∉ (s1.set t x).readers := by
          intro s1 x e; rw [show (s1.set t x).readers = s1.readers from rfl, e]; exact List.not_mem_nil
        cases i
        case lock =>
          cases hm : m t <;> rw [hm] at h1 hh <;> first | (cases h1; done) | (cases ‹Bool› <;> cases h1; done) | (rename_i w' _; cases w' <;> cases ‹Bool› <;> cases h1; done) | skip
          cases h1
          simp only [State.instr] at hs
          split at hs
          · rename_i hl
            cases hs
            exact ⟨_, h.alone (m' := .wr) (.inr hl) hl.2 rfl (.inr rfl) ⟨rfl, hnil _ _ hl.2, h.idle hl.1⟩ hf
              (by rintro ⟨⟩) (Nat.le_refl _) (by rintro _ _ ⟨⟩)⟩
          · cases hs
        case rlock =>
          cases hm : m t <;> rw [hm] at h1 hh <;> first | (cases h1; done) | (cases ‹Bool› <;> cases h1; done) | (rename_i w' _; cases w' <;> cases ‹Bool› <;> cases h1; done) | skip
          cases h1
          simp only [State.instr] at hs
          split at hs
          · rename_i hl
            cases hs
            exact ⟨_, h.shared (m' := .rd) rfl rfl rfl rfl rfl rfl
              (fun u hu => ⟨fun e => (List.mem_cons.1 e).resolve_left hu, List.mem_cons_of_mem _⟩)
              (List.nodup_cons.2 ⟨hh.2, h.nodup⟩) (fun e => absurd hl e) (.inr rfl)
              ⟨hh.1, List.mem_cons_self⟩ hf (.inl rfl) (by rw [hm]; rfl)⟩
          · cases hs
        case runlock =>
          cases hm : m t <;> rw [hm] at h1 hh <;> first | (cases h1; done) | (cases ‹Bool› <;> cases h1; done) | (rename_i w' _; cases w' <;> cases ‹Bool› <;> cases h1; done) | skip
          cases h1
          simp only [State.instr] at hs
          cases hs
          exact ⟨_, h.shared (m' := .out) rfl rfl rfl rfl rfl rfl
              (fun u hu => List.mem_erase_of_ne hu)
              (h.nodup.erase t) (fun e => by rw [show State.readers _ = s.readers.erase t from rfl, h.excl e]; rfl) (.inl rfl)
              ⟨hh.1, h.nodup.not_mem_erase⟩ hf (.inl rfl) (by rw [hm]; rfl)⟩
        case read k =>
          cases hm : m t <;> rw [hm] at h1 hh <;> first | (cases h1; done) | (cases ‹Bool› <;> cases h1; done) | (rename_i w' _; cases w' <;> cases ‹Bool› <;> cases h1; done) | skip
          cases h1
          simp only [State.instr] at hs
          split at hs
          · cases hs
            exact ⟨m, h.fits, fun u => by
              have := h.holds u
              revert this
              cases m u <;> exact id, h.nodup, h.excl, h.idle, h.old, h.older, h.patch⟩
          · cases hs
            exact ⟨_, h.shared (s1 := s) (m' := .out) rfl rfl rfl rfl rfl rfl (fun _ _ => Iff.rfl)
              h.nodup h.excl (.inl rfl) hh hf (.inl rfl) (by rw [hm]; rfl)⟩
        case load =>
          simp only [State.instr] at hs
          cases hs
          cases hm : m t <;> rw [hm] at h1 hh <;> first | (cases h1; done) | (cases ‹Bool› <;> cases h1; done) | (rename_i w' _; cases w' <;> cases ‹Bool› <;> cases h1; done) | skip
          · cases h1
            refine ⟨_, h.shared (s1 := s) (m' := .rd) rfl rfl rfl rfl rfl rfl (fun _ _ => Iff.rfl)
              h.nodup h.excl (.inr rfl) hh hf (.inr ⟨rfl, ?_⟩) (by rw [hm]; rfl)⟩
            cases hw : s.writer with
            | none => rfl
            | some u =>
              have := h.excl (by rw [hw]; rintro ⟨⟩)
              have h2 := hh.2
              rw [this] at h2; cases h2
          · simp only [Mode.next] at h1
            split at h1 <;> cases h1
            rename_i hpt
            obtain ⟨hw, hr, hE⟩ := hh
            have hrd := h.excl (by rw [hw]; rintro ⟨⟩)
            exact ⟨_, h.alone (s1 := s) (m' := .cur false) (.inl hw) hrd rfl (.inr hw)
              ⟨hw, hr, hE.1, by rw [set_thr, if_pos rfl]; rfl, hE.2.1, hE.2.2⟩ hf
              (by rw [hw]; rintro ⟨⟩) (Nat.le_refl _) (by rintro _ _ ⟨⟩) (fun _ _ => .inl hpt)⟩
        case unlock =>
          simp only [State.instr] at hs
          cases hs
          cases hm : m t with
          | cur w =>
            rw [hm] at h1 hh
            cases w <;> first | (cases h1; done) | skip
            cases h1
            obtain ⟨hw, hr, hE⟩ := hh
            have hrd := h.excl (by rw [hw]; rintro ⟨⟩)
            exact ⟨_, h.alone (m' := .out) (.inl hw) hrd rfl (.inl rfl) ⟨by rintro ⟨⟩, hr⟩ hf
              (fun _ => ⟨hE.1, hE.2.2.1, hE.2.2.2, Nat.le_of_eq hE.2.1⟩) (Nat.le_refl _) (by rintro _ _ ⟨⟩)⟩
          | pub w b =>
            rw [hm] at h1 hh
            cases w <;> first | (cases h1; done) | skip
            cases b <;> first | (cases h1; done) | skip
            cases h1
            obtain ⟨hw, hr, hE⟩ := hh
            have hrd := h.excl (by rw [hw]; rintro ⟨⟩)
            exact ⟨_, h.alone (m' := .out) (.inl hw) hrd rfl (.inl rfl) ⟨by rintro ⟨⟩, hr⟩ hf
              (fun _ => ⟨hE.1, hE.2.2.1, hE.2.2.2 rfl, Nat.le_of_eq hE.2.1⟩) (Nat.le_refl _) (by rintro _ _ ⟨⟩)⟩
          | fresh w => rw [hm] at h1; cases w <;> cases h1
          | _ => rw [hm] at h1; cases h1
        case incPushed =>
          simp only [State.instr] at hs
          cases hs
          cases hm : m t <;> rw [hm] at h1 hh <;> first | (cases h1; done) | (cases ‹Bool› <;> cases h1; done) | (rename_i w' _; cases w' <;> cases ‹Bool› <;> cases h1; done) | skip
          cases h1
          obtain ⟨hw, hr, hE⟩ := hh
          have hrd := h.excl (by rw [hw]; rintro ⟨⟩)
          exact ⟨_, h.alone (m' := .wr) (.inl hw) hrd rfl (.inr hw) ⟨hw, hr, hE⟩ hf
            (fun e => by rw [show State.writer _ = s.writer from rfl, hw] at e; cases e) (Nat.le_refl _) (by rintro _ _ ⟨⟩)⟩
        case incIter =>
          simp only [State.instr] at hs
          cases hs
          cases hm : m t <;> rw [hm] at h1 hh <;> first | (cases h1; done) | (cases ‹Bool› <;> cases h1; done) | (rename_i w' _; cases w' <;> cases ‹Bool› <;> cases h1; done) | skip
          cases h1
          obtain ⟨hw, hr, hE⟩ := hh
          have hrd := h.excl (by rw [hw]; rintro ⟨⟩)
          exact ⟨_, h.alone (m' := .wrI) (.inl hw) hrd rfl (.inr hw) ⟨hw, hr, hE.1, hE.2.1⟩ hf
            (fun e => by rw [show State.writer _ = s.writer from rfl, hw] at e; cases e) (Nat.le_refl _) (by rintro _ _ ⟨⟩)⟩
        case zero =>
          simp only [State.instr] at hs
          cases hs
          cases hm : m t <;> rw [hm] at h1 hh <;> first | (cases h1; done) | (cases ‹Bool› <;> cases h1; done) | (rename_i w' _; cases w' <;> cases ‹Bool› <;> cases h1; done) | skip
          cases h1
          obtain ⟨hw, hr, hE⟩ := hh
          have hrd := h.excl (by rw [hw]; rintro ⟨⟩)
          exact ⟨_, h.alone (m' := .wrI) (.inl hw) hrd rfl (.inr hw) ⟨hw, hr, hE.1, hE.2.1⟩ hf
            (fun e => by rw [show State.writer _ = s.writer from rfl, hw] at e; cases e) (Nat.le_refl _) (by rintro _ _ ⟨⟩)⟩
        case fresh =>
          simp only [State.instr] at hs
          cases hs
          cases hm : m t <;> rw [hm] at h1 hh <;> first | (cases h1; done) | (cases ‹Bool› <;> cases h1; done) | (rename_i w' _; cases w' <;> cases ‹Bool› <;> cases h1; done) | skip
          cases h1
          obtain ⟨hw, hr, hE⟩ := hh
          have hrd := h.excl (by rw [hw]; rintro ⟨⟩)
          refine ⟨_, h.alone (m' := .fresh false) (.inl hw) hrd rfl (.inr hw) ⟨hw, hr, ?_, ?_, hE.2⟩ hf
            (fun e => by rw [show State.writer _ = s.writer from rfl, hw] at e; cases e) (Nat.le_refl _) (by rintro _ _ ⟨⟩)⟩
          · show s.cur + 1 < (s.maps ++ [_]).length
            have := hE.1
            rw [List.length_append, List.length_singleton]; omega
          · rw [set_thr, if_pos rfl]
            show s.maps.length + 1 = (s.maps ++ [_]).length
            rw [List.length_append, List.length_singleton]
        case publish =>
          simp only [State.instr] at hs
          cases hs
          cases hm : m t with
          | fresh w =>
            rw [hm] at h1 hh
            cases w <;> first | (cases h1; done) | skip
            cases h1
            obtain ⟨hw, hr, hE⟩ := hh
            have hrd := h.excl (by rw [hw]; rintro ⟨⟩)
            have hlt : s.cur < (s.thr t).reg := by have h1 := hE.1; have h2 := hE.2.1; omega
            exact ⟨_, h.alone (m' := .pub false false) (.inl hw) hrd rfl (.inr hw)
              ⟨hw, hr, hE.2.1, by rw [set_thr, if_pos rfl]; rfl, hE.2.2, by rintro ⟨⟩⟩ hf
              (fun e => by rw [show State.writer _ = s.writer from rfl, hw] at e; cases e)
              (Nat.le_of_lt hlt) (fun _ _ _ => .inl hlt)⟩
          | cur w => rw [hm] at h1; cases w <;> cases h1
          | pub w b => rw [hm] at h1; cases w <;> cases b <;> cases h1
          | _ => rw [hm] at h1; cases h1
        case writeBegin k v =>
          have hnw := h.noWrite hc
          simp only [State.instr, if_neg hnw] at hs
          cases hs
          cases hm : m t with
          | cur w =>
            rw [hm] at h1 hh
            cases w <;> first | (cases h1; done) | skip
            simp only [Mode.next] at h1
            split at h1 <;> cases h1
            obtain ⟨hw, hr, hE⟩ := hh
            have hrd := h.excl (by rw [hw]; rintro ⟨⟩)
            refine ⟨_, h.alone (m' := .cur true) (.inl hw) hrd rfl (.inr hw)
              ⟨hw, hr, hE.1, by rw [set_thr, if_pos rfl]; exact hE.2.1, ?_, hE.2.2.2⟩ hf
              (fun e => by rw [show State.writer _ = s.writer from rfl, hw] at e; cases e)
              (Nat.le_refl _) (by rintro _ _ ⟨⟩) (fun _ _ => .inr ⟨_, hm⟩)⟩
            show (s.thr t).reg :: s.writing = [s.cur]
            rw [hE.2.1, hE.2.2.1]; rfl
          | fresh w =>
            rw [hm] at h1 hh
            cases w <;> first | (cases h1; done) | skip
            cases h1
            obtain ⟨hw, hr, hE⟩ := hh
            have hrd := h.excl (by rw [hw]; rintro ⟨⟩)
            refine ⟨_, h.alone (m' := .fresh true) (.inl hw) hrd rfl (.inr hw)
              ⟨hw, hr, hE.1, by rw [set_thr, if_pos rfl]; exact hE.2.1, ?_⟩ hf
              (fun e => by rw [show State.writer _ = s.writer from rfl, hw] at e; cases e)
              (Nat.le_refl _) (by rintro _ _ ⟨⟩)⟩
            show (s.thr t).reg :: s.writing = [(if t = t then _ else _ : Thread).reg]
            rw [if_pos rfl, hE.2.2]; rfl
          | pub w b =>
            rw [hm] at h1 hh
            cases w <;> first | (cases h1; done) | skip
            cases h1
            obtain ⟨hw, hr, hE⟩ := hh
            have hrd := h.excl (by rw [hw]; rintro ⟨⟩)
            refine ⟨_, h.alone (m' := .pub true b) (.inl hw) hrd rfl (.inr hw)
              ⟨hw, hr, hE.1, by rw [set_thr, if_pos rfl]; exact hE.2.1, ?_, hE.2.2.2⟩ hf
              (fun e => by rw [show State.writer _ = s.writer from rfl, hw] at e; cases e)
              (Nat.le_refl _) (fun _ _ _ => .inr ⟨rfl, _, _, hm⟩)⟩
            show (s.thr t).reg :: s.writing = [s.cur]
            rw [hE.2.1, hE.2.2.1]; rfl
          | _ => rw [hm] at h1; cases h1
        case writeEnd k v =>
          simp only [State.instr] at hs
          cases hs
          cases hm : m t with
          | cur w =>
            rw [hm] at h1 hh
            cases w <;> first | (cases h1; done) | skip
            simp only [Mode.next] at h1
            split at h1 <;> cases h1
            rename_i hk
            obtain ⟨hw, hr, hE⟩ := hh
            have hrd := h.excl (by rw [hw]; rintro ⟨⟩)
            obtain ⟨e1, e2, e3, e4⟩ := hE
            refine ⟨_, h.alone (m' := .cur false) (.inl hw) hrd rfl (.inr hw)
              ⟨hw, hr, ?_, by rw [set_thr, if_pos rfl]; exact e2, ?_, ?_⟩ hf
              (fun e => by rw [show State.writer _ = s.writer from rfl, hw] at e; cases e)
              (Nat.le_refl _) (by rintro _ _ ⟨⟩) (fun _ _ => .inr ⟨_, hm⟩)⟩
            · show s.cur + 1 = (s.maps.set _ _).length
              rw [List.length_set]; exact e1
            · show s.writing.erase (s.thr t).reg = []
              rw [e2, e3]; simp
            · show State.map _ s.cur .iterations = s.iterations
              rw [map_set_eq (s := s) (i := s.cur) (by omega) ((s.map s.cur).put k (s.value v)) _ (by rw [← e2]; rfl)]
              unfold Map.put
              split
              · rename_i e; rw [hk e.symm]; rfl
              · exact e4
          | fresh w =>
            rw [hm] at h1 hh
            cases w <;> first | (cases h1; done) | skip
            cases h1
            obtain ⟨hw, hr, hE⟩ := hh
            have hrd := h.excl (by rw [hw]; rintro ⟨⟩)
            refine ⟨_, h.alone (m' := .fresh false) (.inl hw) hrd rfl (.inr hw)
              ⟨hw, hr, ?_, ?_, ?_⟩ hf
              (fun e => by rw [show State.writer _ = s.writer from rfl, hw] at e; cases e)
              (Nat.le_refl _) (by rintro _ _ ⟨⟩)⟩
            · show s.cur + 1 < (s.maps.set _ _).length
              rw [List.length_set]; exact hE.1
            · rw [set_thr, if_pos rfl]
              show (s.thr t).reg + 1 = (s.maps.set _ _).length
              rw [List.length_set]; exact hE.2.1
            · show s.writing.erase (s.thr t).reg = []
              rw [hE.2.2]; simp
          | pub w b =>
            rw [hm] at h1 hh
            cases w <;> first | (cases h1; done) | skip
            obtain ⟨hw, hr, e1, e2, e3, e4⟩ := hh
            have hrd := h.excl (by rw [hw]; rintro ⟨⟩)
            have e5 : s.writing.erase (s.thr t).reg = [] := by rw [e2, e3]; simp
            simp only [Mode.next] at h1
            have hmap := map_set_eq (s := s) (i := s.cur) (by omega) ((s.map s.cur).put k (s.value v))
            split at h1
            · split at h1 <;> cases h1
              subst k v
              refine ⟨_, h.alone (m' := .pub false true) (.inl hw) hrd rfl (.inr hw)
                ⟨hw, hr, ?_, by rw [set_thr, if_pos rfl]; exact e2, e5, fun _ => ?_⟩ hf
                (fun e => by rw [show State.writer _ = s.writer from rfl, hw] at e; cases e)
                (Nat.le_refl _) (fun _ _ _ => .inr ⟨rfl, _, _, hm⟩)⟩
              · show s.cur + 1 = (s.maps.set _ _).length
                rw [List.length_set]; exact e1
              · show State.map _ s.cur .iterations = s.iterations
                rw [hmap _ (by rw [← e2]; rfl)]
                rfl
            · cases h1
              rename_i hk
              refine ⟨_, h.alone (m' := .pub false b) (.inl hw) hrd rfl (.inr hw)
                ⟨hw, hr, ?_, by rw [set_thr, if_pos rfl]; exact e2, e5, fun hb => ?_⟩ hf
                (fun e => by rw [show State.writer _ = s.writer from rfl, hw] at e; cases e)
                (Nat.le_refl _) (fun _ _ _ => .inr ⟨rfl, _, _, hm⟩)⟩
              · show s.cur + 1 = (s.maps.set _ _).length
                rw [List.length_set]; exact e1
              · show State.map _ s.cur .iterations = s.iterations
                rw [hmap _ (by rw [← e2]; rfl)]
                unfold Map.put
                rw [if_neg (fun e => hk e.symm)]
                exact e4 hb
          | _ => rw [hm] at h1; cases h1
    · cases hs

/-! ## Consequences -/

/-- What a step does to the maps. -/
theorem step_map {a : Act} (hs : s.step a = some s') :
    (s'.maps = s.maps ∨ s'.maps = s.maps ++ [fun _ => 0]) ∨
    ∃ t k v c, (s.thr t).code = .writeEnd k v :: c ∧
      s'.maps = s.maps.set (s.thr t).reg ((s.map (s.thr t).reg).put k (s.value v)) := by
  cases a with
  | start t op =>
    simp only [State.step] at hs
    split at hs
    · cases hs; exact .inl (.inl rfl)
    · cases hs
  | go t =>
    simp only [State.step] at hs
    split at hs
    · cases hc : (s.thr t).code with
      | nil => rw [hc] at hs; cases hs
      | cons i c =>
        rw [hc] at hs
        simp only at hs
        cases i <;> simp only [State.instr] at hs
        case writeEnd k v => cases hs; exact .inr ⟨t, k, v, c, hc, rfl⟩
        all_goals
          first
            | (cases hs; exact .inl (.inl rfl))
            | (cases hs; exact .inl (.inr rfl))
            | (split at hs <;> first | (cases hs; exact .inl (.inl rfl)) | (cases hs; done))
    · cases hs

/-- The current map changes only for a newer one. -/
theorem Inv.cur_mono {m : Nat → Mode} (h : Inv p s m) {a : Act} (hs : s.step a = some s') :
    s.cur ≤ s'.cur := by
  cases a with
  | start t op =>
    simp only [State.step] at hs
    split at hs
    · cases hs; exact Nat.le_refl _
    · cases hs
  | go t =>
    simp only [State.step] at hs
    split at hs
    · cases hc : (s.thr t).code with
      | nil => rw [hc] at hs; cases hs
      | cons i c =>
        rw [hc] at hs
        simp only at hs
        cases i <;> simp only [State.instr] at hs
        case publish =>
          cases hs
          show s.cur ≤ (s.thr t).reg
          have hf := h.fits t
          have hh := h.holds t
          rw [hc] at hf
          obtain ⟨m', h1, _⟩ := hf
          cases hm : m t with
          | fresh w =>
            rw [hm] at hh
            obtain ⟨_, _, h1, h2, _⟩ := hh
            omega
          | cur w => rw [hm] at h1; cases w <;> cases h1
          | pub w b => rw [hm] at h1; cases w <;> cases b <;> cases h1
          | _ => rw [hm] at h1; cases h1
        all_goals
          first
            | (cases hs; exact Nat.le_refl _)
            | (split at hs <;> first | (cases hs; exact Nat.le_refl _) | (cases hs; done))
    · cases hs

theorem Inv.curLt {m : Nat → Mode} (h : Inv p s m) : s.cur < s.maps.length := by
  cases hw : s.writer with
  | none => have := (h.idle hw).1; omega
  | some t =>
    have hh := h.holds t
    cases hm : m t <;> rw [hm] at hh
    case out => exact absurd hw hh.1
    case rd => exact absurd hw hh.1
    all_goals
      have := hh.2.2.1
      omega

/-- A write ends in the map of the controller, or in one nobody has; in the first case the number of
iterations there changes only while nobody else has this map. -/
theorem Inv.writes {m : Nat → Mode} (h : Inv p s m) {k : Key} {v : Src} {c : List Instr}
    (hc : (s.thr t).code = .writeEnd k v :: c) :
    (s.cur < (s.thr t).reg) ∨ ((s.thr t).reg = s.cur ∧
      ((s.map s.cur .iterations = s.iterations ∧ (k = .iterations → v = .iterations)) ∨
        ∀ u, s.writer ≠ some u → (s.thr u).reg < s.cur)) := by
  have hf := h.fits t
  have hh := h.holds t
  rw [hc] at hf
  obtain ⟨m', h1, _⟩ := hf
  cases hm : m t with
  | cur w =>
    rw [hm] at h1 hh
    cases w <;> first | (cases h1; done) | skip
    simp only [Mode.next] at h1
    split at h1
    case isFalse => cases h1
    rename_i hk
    exact .inr ⟨hh.2.2.2.1, .inl ⟨hh.2.2.2.2.2, hk⟩⟩
  | fresh w =>
    rw [hm] at h1 hh
    obtain ⟨_, _, h2, h3, _⟩ := hh
    left; omega
  | pub w b =>
    rw [hm] at hh
    refine .inr ⟨hh.2.2.2.1, .inr fun u hu => h.older u t w b ?_ hm⟩
    rintro rfl
    exact hu hh.1
  | _ => rw [hm] at h1; cases h1

/-- A map which has been replaced does not change. -/
theorem Inv.frozen {m : Nat → Mode} (h : Inv p s m) {a : Act} (hs : s.step a = some s') {i : Nat}
    (hi : i < s.cur) : s'.map i = s.map i := by
  have hl := h.curLt
  rcases step_map hs with (e | e) | ⟨t, k, v, c, hc, e⟩
  · unfold State.map; rw [e]
  · exact map_append (by omega) _ _ e
  · rcases h.writes hc with h' | ⟨h', _⟩ <;> exact map_set_ne (by omega) _ _ e

/-- The number of iterations in a map somebody has does not change. -/
theorem Inv.stable {m : Nat → Mode} (h : Inv p s m) {a : Act} (hs : s.step a = some s')
    (hu : s.writer ≠ some u) : s'.map (s.thr u).reg .iterations = s.map (s.thr u).reg .iterations := by
  have hl := h.curLt
  have ho := h.old u hu
  rcases step_map hs with (e | e) | ⟨t, k, v, c, hc, e⟩
  · unfold State.map; rw [e]
  · rw [map_append (by omega) _ _ e]
  · rcases h.writes hc with h' | ⟨h', h''⟩
    · rw [map_set_ne (by omega) _ _ e]
    · by_cases hr : (s.thr u).reg = s.cur
      · rcases h'' with ⟨h1, h2⟩ | h1
        · rw [h'] at e
          rw [hr, map_set_eq hl _ _ e]
          unfold Map.put
          split
          · rename_i hk
            rw [h2 hk.symm]; exact h1.symm
          · rfl
        · have := h1 u hu
          omega
      · rw [map_set_ne (by omega) _ _ e]

/-- A step which faults is a read of the current map, which somebody is writing. -/
theorem Inv.fault {m : Nat → Mode} (h : Inv p s m) {a : Act} (hs : s.step a = some s')
    (h0 : s.fault = none) (hf : s'.fault ≠ none) :
    p = true ∧ s'.fault = some .readWrite ∧ ∃ t k c, a = .go t ∧ (s.thr t).code = .read k :: c ∧
      (s.thr t).reg = s.cur ∧ s.writer ≠ some t := by
  cases a with
  | start t op =>
    simp only [State.step] at hs
    split at hs
    · cases hs; exact absurd h0 hf
    · cases hs
  | go t =>
    simp only [State.step] at hs
    split at hs
    · cases hc : (s.thr t).code with
      | nil => rw [hc] at hs; cases hs
      | cons i c =>
        rw [hc] at hs
        simp only at hs
        cases i <;> simp only [State.instr] at hs
        case writeBegin k v =>
          rw [if_neg (h.noWrite hc)] at hs
          cases hs; exact absurd h0 hf
        case read k =>
          split at hs
          · rename_i hw
            cases hs
            have hfi := h.fits t
            have hh := h.holds t
            rw [hc] at hfi
            obtain ⟨m', h1, _⟩ := hfi
            have hm : m t = .out := by
              cases hm : m t with
              | out => rfl
              | cur w => rw [hm] at h1; cases w <;> cases h1
              | fresh w => rw [hm] at h1; cases w <;> cases h1
              | pub w b => rw [hm] at h1; cases w <;> cases b <;> cases h1
              | _ => rw [hm] at h1; cases h1
            rw [hm] at hh
            have hwr := hh.1
            have ho := h.old t hwr
            cases hwu : s.writer with
            | none => rw [(h.idle hwu).2.1] at hw; cases hw
            | some u =>
              have hhu := h.holds u
              have hut : t ≠ u := by rintro rfl; exact hwr hwu
              have hfu := h.fits u
              cases hmu : m u with
              | out => rw [hmu] at hhu; exact absurd hwu hhu.1
              | rd => rw [hmu] at hhu; exact absurd hwu hhu.1
              | wr => rw [hmu] at hhu; rw [hhu.2.2.2.1] at hw; cases hw
              | wrI => rw [hmu] at hhu; rw [hhu.2.2.2] at hw; cases hw
              | cur w =>
                rw [hmu] at hhu hfu
                rw [hhu.2.2.2.2.1] at hw
                cases w <;> simp only [Bool.false_eq_true, if_false, if_true, List.not_mem_nil, List.mem_singleton] at hw
                refine ⟨?_, rfl, t, k, c, rfl, hc, hw, by rw [hwu] at hwr; exact hwr⟩
                exact h.patch u _ hmu
              | fresh w =>
                rw [hmu] at hhu
                rw [hhu.2.2.2.2] at hw
                cases w <;> simp only [Bool.false_eq_true, if_false, if_true, List.not_mem_nil, List.mem_singleton] at hw
                have := hhu.2.2.1
                have := hhu.2.2.2.1
                omega
              | pub w b =>
                rw [hmu] at hhu
                rw [hhu.2.2.2.2.1] at hw
                cases w <;> simp only [Bool.false_eq_true, if_false, if_true, List.not_mem_nil, List.mem_singleton] at hw
                have := h.older t u _ _ hut hmu
                omega
          · cases hs; exact absurd h0 hf
        all_goals
          first
            | (cases hs; exact absurd h0 hf)
            | (split at hs <;> first | (cases hs; exact absurd h0 hf) | (cases hs; done))
    · rename_i hn; exact absurd h0 hn

/-- The invariant of an execution. -/
theorem Inv.exec {m : Nat → Mode} (h : Inv p s m) : ∀ {as : List Act}, exec s as = some s' →
    (∀ t op, Act.start t op ∈ as → patches op = true → p = true) → ∃ m', Inv p s' m' := by
  intro as
  induction as generalizing s m with
  | nil => intro he _; cases he; exact ⟨m, h⟩
  | cons a as ih =>
    intro he hp
    simp only [Fig.exec] at he
    cases hs : s.step a with
    | none => rw [hs] at he; cases he
    | some s1 =>
      rw [hs] at he
      obtain ⟨m1, h1⟩ := h.step hs fun t op e => hp t op (e ▸ List.mem_cons_self)
      exact ih h1 he fun t op e => hp t op (List.mem_cons_of_mem _ e)

end Fig
end Distclus
