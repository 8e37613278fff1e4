import Verif.Spec.CtrlBuffered
import Verif.Proof.Buffer
import Verif.Proof.CtrlTidy
/-!
# Lemmas about an implementation with a buffer
-/
namespace Distclus
open Ctrl Algo Spec
variable {E C : Type}

section
variable {ini : List E → C → Prop} {step : List E → C → Option C} {b0 : DataBuffer E}

theorem alive_eq (st : OCStatus) : st.alive = Spec.alive st := by
  obtain ⟨v, e⟩ := st; cases v <;> rfl

theorem NoIter.doneSince : ∀ {l : List (Event C)}, NoIter l → Spec.doneSince l = 0 := by
  intro l
  induction l with
  | nil => intro _; rfl
  | cons e l ih => intro h; cases e <;> first | exact ih h | rfl | exact h.elim

theorem NoIter.computes {f : Nat → C → Option C} : ∀ {l : List (Event C)}, NoIter l → Computes f l := by
  intro l
  induction l with
  | nil => intro _; trivial
  | cons e l ih => intro h; cases e <;> first | exact ih h | exact h.elim

theorem NoIter.given {r : Nat} : ∀ {l : List (Event C)}, NoIter l → given r l = none := by
  intro l
  induction l with
  | nil => intro _; rfl
  | cons e l ih => intro h; cases e <;> first | exact ih h | exact h.elim

theorem DataBuffer.applyLoop_pipe_nil : ∀ (n : Nat) (b : DataBuffer E), b.pipe.length = n →
    (DataBuffer.applyLoop n b).pipe = [] := by
  intro n
  induction n with
  | zero => intro b h; exact List.length_eq_zero_iff.1 h
  | succ n ih =>
    intro b h
    cases hp : b.pipe with
    | nil => rw [hp] at h; cases h
    | cons e r =>
      have hb : b.applyNext = ({ b with pipe := r }.store e, true) := by
        unfold DataBuffer.applyNext; rw [hp]
      unfold DataBuffer.applyLoop
      rw [hb]
      refine ih _ ?_
      rw [hp] at h
      simpa [DataBuffer.store] using h

theorem DataBuffer.apply_pipe_nil (b : DataBuffer E) : b.apply.pipe = [] :=
  DataBuffer.applyLoop_pipe_nil _ b rfl

theorem DataBuffer.apply_of_nil {b : DataBuffer E} (h : b.pipe = []) : b.apply = b := by
  unfold DataBuffer.apply; rw [h]; rfl

/-- The buffer with the elements pushed since the last `Init` staged. -/
def staged (st : Notes E) : DataBuffer E := { st.base with pipe := st.since }

/-- The buffer before and after the first iteration. -/
structure BufInv (l : List (Event C)) (st : Notes E) : Prop where
  base : st.base.pipe = []
  before : NoIter l → Steady l → st.buf = staged st
  first : ¬ NoIter l → doneSince l = 0 → st.buf = staged st
  next : ¬ NoIter l → 0 < doneSince l → st.buf = st.full
  cap : st.buf.pipe.length ≤ pipeSize

theorem Buffered.inv (h0 : b0.pipe = []) : ∀ {l : List (Event C)} {st : Notes E}, Buffered ini step b0 l st →
    Orderly l → BufInv l st := by
  intro l
  induction l with
  | nil =>
    intro st h _
    cases h
    refine ⟨h0, fun _ _ => ?_, fun h => absurd trivial h, fun h => absurd trivial h, by rw [h0]; exact Nat.zero_le _⟩
    obtain ⟨p, d, s⟩ := b0; cases h0; rfl
  | cons e l ih =>
    intro st' h hO
    obtain ⟨st, hB, hn⟩ := h
    have hO' : Orderly l := by cases e <;> first | exact hO | exact hO.2
    have hI := ih hB hO'
    cases e
    case implPushed =>
      obtain ⟨x, b, hb, rfl⟩ := hn
      have hN : NoIter l := hO.1
      have hb0 : b.pipe.length ≤ pipeSize := by
        unfold DataBuffer.push at hb
        split at hb
        · split at hb
          · cases hb; simp; omega
          · cases hb
        · cases hb; exact hI.cap
      refine ⟨hI.base, fun _ hS => ?_, fun h => absurd hN h, fun h => absurd hN h, hb0⟩
      obtain ⟨ha, hS⟩ := hS
      rw [alive_eq, ha, hI.before hN hS] at hb
      unfold DataBuffer.push at hb
      rw [if_pos rfl] at hb
      split at hb
      · cases hb; rfl
      · cases hb
    case initRet c e =>
      obtain ⟨_, rfl⟩ := hn
      have hN : NoIter l := hO.1
      have hp := DataBuffer.apply_pipe_nil st.buf
      refine ⟨hp, fun _ _ => ?_, fun h => absurd hN h, fun h => absurd hN h, by rw [hp]; exact Nat.zero_le _⟩
      simp only [staged]
      generalize st.buf.apply = b at hp ⊢
      obtain ⟨p, d, s⟩ := b; cases hp; rfl
    case iterCall r st1 c =>
      cases hn
      refine ⟨hI.base, fun h => h.elim, fun _ hd => ?_, fun _ hd => ?_, hI.cap⟩
      · by_cases hN : NoIter l
        · exact hI.before hN hO.1
        · exact hI.first hN hd
      · refine hI.next (fun hN => ?_) hd
        have := NoIter.doneSince hN
        simp only [doneSince] at hd
        omega
    case iterOk r c =>
      obtain ⟨⟨c0, hg, _⟩, rfl⟩ := hn
      have hN : ¬ NoIter l := fun h => by rw [NoIter.given h] at hg; cases hg
      refine ⟨hI.base, fun h => h.elim, fun _ hd => (by cases hd), fun _ _ => ?_,
        by rw [DataBuffer.apply_pipe_nil]; exact Nat.zero_le _⟩
      by_cases hd : doneSince l = 0
      · rw [hI.first hN hd]; rfl
      · rw [hI.next hN (by omega)]
        exact DataBuffer.apply_of_nil (DataBuffer.apply_pipe_nil _)
    all_goals
      cases hn
      exact ⟨hI.base, hI.before, hI.first, hI.next, hI.cap⟩

/-- The iterations compute on what they see. -/
theorem Buffered.computes (h0 : b0.pipe = []) : ∀ {l : List (Event C)} {st : Notes E},
    Buffered ini step b0 l st → Orderly l → Computes (fun n => step (st.seen n)) l := by
  intro l
  induction l with
  | nil => intro st _ _; trivial
  | cons e l ih =>
    intro st' h hO
    obtain ⟨st, hB, hn⟩ := h
    have hO' : Orderly l := by cases e <;> first | exact hO | exact hO.2
    have hI := Buffered.inv h0 hB hO'
    cases e
    case implPushed => exact NoIter.computes (l := .implPushed :: l) hO.1
    case initRet c e => exact NoIter.computes (l := .initRet c e :: l) hO.1
    case iterOk r c =>
      obtain ⟨⟨c0, hg, hs⟩, rfl⟩ := hn
      have hN : ¬ NoIter l := fun h => by rw [NoIter.given h] at hg; cases hg
      have h1 := ih hB hO'
      refine ⟨⟨c0, hg, ?_⟩, h1⟩
      rw [← hs]
      simp only [Notes.seen, Notes.full]
      by_cases hd : doneSince l = 0
      · rw [if_pos hd, hI.first hN hd]; rfl
      · rw [if_neg hd, hI.next hN (by omega)]; rfl
    all_goals
      cases hn
      exact ih hB hO'

/-- The initial centroids are computed on the data stored at the last `Init`. -/
theorem Buffered.initial : ∀ {l : List (Event C)} {st : Notes E}, Buffered ini step b0 l st →
    (∀ c e, .initRet c e ∈ l → e = none) → l.any initOk = true →
    ∃ c0, Spec.initial l = some c0 ∧ ini st.base.data c0 := by
  intro l
  induction l with
  | nil => intro st _ _ h; cases h
  | cons e l ih =>
    intro st' h he ha
    obtain ⟨st, hB, hn⟩ := h
    have he' := fun c e hm => he c e (List.mem_cons_of_mem _ hm)
    cases e
    case initRet c e =>
      obtain ⟨h1, rfl⟩ := hn
      obtain ⟨c0, rfl, h2⟩ := h1 (he _ _ List.mem_cons_self)
      exact ⟨c0, rfl, h2⟩
    case implPushed => obtain ⟨x, b, hb, rfl⟩ := hn; have h1 := ih hB he' ha; exact h1
    case iterOk => obtain ⟨_, rfl⟩ := hn; have h1 := ih hB he' ha; exact h1
    all_goals
      cases hn
      exact ih hB he' ha

theorem Buffered.fresh : ∀ {l : List (Event C)} {st : Notes E}, Buffered ini step b0 l st → Fresh l →
    st.since = [] := by
  intro l
  induction l with
  | nil => intro st h _; cases h; rfl
  | cons e l ih =>
    intro st' h hF
    obtain ⟨st, hB, hn⟩ := h
    cases e
    case initRet c e => obtain ⟨h1, rfl⟩ := hn; rfl
    case implPushed => exact hF.elim
    case iterOk => obtain ⟨_, rfl⟩ := hn; have h1 := ih hB hF; exact h1
    all_goals
      cases hn
      exact ih hB hF

theorem batching_inits : ∀ {l : List (Event C)}, Batching l → ∀ c e, .initRet c e ∈ l → e = none := by
  intro l
  induction l with
  | nil => intro _ c e h; cases h
  | cons e l ih =>
    intro h c e' hm
    cases hm with
    | head => exact h.1
    | tail _ hm => exact ih h.2 c e' hm
end

section
variable {ini : List E → C → Prop} {step : List E → C → Option C}

theorem BufRep.window {size : Int} {l : BufLog E} {b : DataBuffer E} (h : BufRep size l b) :
    b.data.Perm (Spec.window size l.stored) := by
  have hd := h.data
  unfold Spec.window
  by_cases hs : 0 < size
  · rw [if_pos hs] at hd ⊢
    obtain ⟨p, _, hF⟩ := hd
    rw [← hF.content]
    conv_lhs => rw [← List.take_append_drop p b.data]
    exact List.perm_append_comm
  · rw [if_neg hs] at hd ⊢
    rw [hd.2]

/-- What the buffers hold. -/
structure HoldInv (size : Int) (data : List E) (st : Notes E) : Prop where
  buf : ∃ S p, BufRep size ⟨S, st.buf.pipe, p⟩ st.buf ∧ (S ++ st.buf.pipe).Perm (data ++ st.pushed)
  base : ∃ S p, BufRep size ⟨S, [], p⟩ st.base ∧ (S ++ st.since).Perm (data ++ st.pushed)

theorem BufRep.other {size : Int} {l l' : BufLog E} {b : DataBuffer E} (h : BufRep size l b)
    (h1 : l.stored = l'.stored) (h2 : l.staged = l'.staged) : BufRep size l' b := by
  obtain ⟨s, t, p⟩ := l; obtain ⟨s', t', p'⟩ := l'; cases h1; cases h2
  exact ⟨h.pipe, h.data⟩

theorem Buffered.hold {size : Int} {data : List E} : ∀ {l : List (Event C)} {st : Notes E},
    Buffered ini step (newDataBuffer data size) l st → HoldInv size data st := by
  intro l
  induction l with
  | nil =>
    intro st h
    cases h
    have h := BufRep.init data size
    have hp : (newDataBuffer data size).pipe = [] := h.pipe
    refine ⟨⟨data, data, ?_, ?_⟩, ⟨data, data, h, List.Perm.refl _⟩⟩
    · simp only [hp]; exact h
    · simp only [hp]; exact List.Perm.refl _
  | cons e l ih =>
    intro st' h
    obtain ⟨st, hB, hn⟩ := h
    obtain ⟨⟨S, p, h1, h2⟩, ⟨S', p', h3, h4⟩⟩ := ih hB
    have happ : ∃ S p, BufRep size ⟨S, st.buf.apply.pipe, p⟩ st.buf.apply ∧
        (S ++ st.buf.apply.pipe).Perm (data ++ st.pushed) := by
      have h5 := applyLoop_rep st.buf.pipe.length h1 rfl
      rw [DataBuffer.apply_pipe_nil]
      exact ⟨_, _, h5, by rw [List.append_nil]; exact h2⟩
    cases e
    case implPushed =>
      obtain ⟨x, b, hb, rfl⟩ := hn
      refine ⟨?_, ⟨S', p', h3, ?_⟩⟩
      · have h5 := h1.step (.push x (current l).alive) hb
        have hp := h5.pipe
        cases ha : (current l).alive with
        | true =>
          rw [ha] at h5 hp
          refine ⟨S, p ++ [x], ?_, ?_⟩
          · rw [hp]; exact h5
          · rw [hp]
            simp only [BufLog.step]
            rw [← List.append_assoc, ← List.append_assoc]
            exact h2.append_right [x]
        | false =>
          rw [ha] at h5 hp
          refine ⟨S ++ [x], p ++ [x], ?_, ?_⟩
          · rw [hp]; exact h5
          · rw [hp]
            simp only [BufLog.step]
            rw [← List.append_assoc]
            refine List.Perm.trans ?_ (h2.append_right [x])
            rw [List.append_assoc, List.append_assoc]
            exact List.Perm.append_left _ List.perm_append_comm
      · simp only
        rw [← List.append_assoc, ← List.append_assoc]
        exact h4.append_right [x]
    case initRet c e =>
      obtain ⟨_, rfl⟩ := hn
      refine ⟨happ, ?_⟩
      obtain ⟨S, p, h5, h6⟩ := happ
      rw [DataBuffer.apply_pipe_nil] at h5 h6
      exact ⟨S, p, h5, h6⟩
    case iterOk r c =>
      obtain ⟨_, rfl⟩ := hn
      exact ⟨happ, ⟨S', p', h3, h4⟩⟩
    all_goals
      cases hn
      exact ⟨⟨S, p, h1, h2⟩, ⟨S', p', h3, h4⟩⟩

/-- After the staged elements are stored the buffer holds all that was pushed. -/
theorem HoldInv.full {size : Int} {data : List E} {st : Notes E} (h : HoldInv size data st) :
    ∃ S : List E, S.Perm (data ++ st.pushed) ∧ st.full.data.Perm (Spec.window size S) := by
  obtain ⟨S, p, h1, h2⟩ := h.base
  have h3 : BufRep size ⟨S, st.since, p⟩ { st.base with pipe := st.since } := ⟨rfl, h1.data⟩
  exact ⟨S ++ st.since, h2, (applyLoop_rep _ h3 rfl).window⟩

theorem HoldInv.start {size : Int} {data : List E} {st : Notes E} (h : HoldInv size data st) :
    ∃ S : List E, (S ++ st.since).Perm (data ++ st.pushed) ∧ st.base.data.Perm (Spec.window size S) := by
  obtain ⟨S, p, h1, h2⟩ := h.base
  exact ⟨S, h2, h1.window⟩

theorem Notes.full_fresh {st : Notes E} (h : st.since = []) : st.full.data = st.base.data := by
  unfold Notes.full; rw [h]; rfl
end

end Distclus
