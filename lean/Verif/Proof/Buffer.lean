import Verif.Spec.Buffer
import Mathlib.Data.List.Rotate
import Mathlib.Tactic.Cases

namespace Distclus
open Spec
variable {E : Type}

/-- Frame invariant: `data`, read from `position` and wrapping around, is the list of the `n` most
recently stored elements. -/
structure FrameInv (n : Nat) (stored : List E) (position : Nat) (data : List E) : Prop where
  size : 0 < n
  len : data.length = min n stored.length
  pos : position ≤ n
  pos_lt : stored.length < n → position = stored.length
  content : data.drop position ++ data.take position = lastN n stored

theorem lastN_of_le {n : Nat} {l : List E} (h : l.length ≤ n) : lastN n l = l := by
  unfold lastN; rw [Nat.sub_eq_zero_of_le h]; rfl

theorem lastN_length (n : Nat) (l : List E) : (lastN n l).length = min n l.length := by
  unfold lastN; simp; omega

theorem lastN_snoc {n : Nat} (hn : 0 < n) {l : List E} (h : n ≤ l.length) (e : E) :
    lastN n (l ++ [e]) = (lastN n l).tail ++ [e] := by
  unfold lastN
  rw [List.tail_drop, List.length_append, List.length_singleton,
    List.drop_append_of_le_length (by omega)]
  congr 2
  omega

theorem FrameInv.push {n p : Nat} {stored data : List E} (h : FrameInv n stored p data) (e : E) :
    ∃ p' data', Strategy.push (.fixed n p) data e = (.fixed n p', data') ∧
      FrameInv n (stored ++ [e]) p' data' := by
  refine ⟨_, _, rfl, ?_⟩
  have hn := h.size
  have hl := h.len
  have hp := h.pos
  by_cases hs : stored.length < n
  · have hpe := h.pos_lt hs
    have hlen : data.length = stored.length := by omega
    have hdata : data = stored := by
      have := h.content
      rw [lastN_of_le (by omega), hpe] at this
      rw [← hlen, List.drop_length, List.take_length, List.nil_append] at this
      exact this
    rw [if_neg (by omega), if_neg (by omega)]
    refine ⟨hn, ?_, by omega, ?_, ?_⟩
    · simp; omega
    · simp; omega
    · rw [lastN_of_le (by simp; omega)]
      subst hdata
      rw [hpe, show data.length + 1 = (data ++ [e]).length by simp, List.drop_length,
        List.take_length, List.nil_append]
  · have hlen : data.length = n := by omega
    have hc := h.content
    by_cases hpn : p = n
    · rw [if_pos hpn, if_pos (by omega)]
      refine ⟨hn, ?_, by omega, by simp; omega, ?_⟩
      · simp; omega
      · rw [lastN_snoc hn (by omega), ← hc, hpn, ← hlen, List.drop_length, List.take_length,
          List.nil_append]
        cases data with
        | nil => simp at hlen; omega
        | cons a as => simp
    · rw [if_neg hpn, if_pos (by omega)]
      refine ⟨hn, by simp; omega, by omega, by simp; omega, ?_⟩
      rw [lastN_snoc hn (by omega), ← hc]
      have hplt : p < data.length := by omega
      rw [List.drop_set_of_lt (by omega)]
      rw [List.take_succ_eq_append_getElem (by simpa using hplt), List.getElem_set_self,
        List.take_set_of_le (by omega)]
      conv_rhs => rw [List.drop_eq_getElem_cons hplt]
      rw [List.cons_append, List.tail_cons, List.append_assoc]

/-- What the concrete buffer is, given the log. -/
structure BufRep (size : Int) (l : BufLog E) (b : DataBuffer E) : Prop where
  pipe : b.pipe = l.staged
  data : if size > 0 then
      ∃ p, b.strategy = .fixed size.toNat p ∧ FrameInv size.toNat l.stored p b.data
    else b.strategy = .infinite ∧ b.data = l.stored

theorem BufRep.init (data : List E) (size : Int) :
    BufRep size (BufLog.init data) (newDataBuffer data size) := by
  unfold newDataBuffer BufLog.init
  by_cases h1 : size > data.length
  · have : size > 0 := by omega
    rw [if_pos h1]
    refine ⟨rfl, ?_⟩
    rw [if_pos this]
    refine ⟨_, rfl, by omega, by simp; omega, by omega, by simp, ?_⟩
    simp [lastN_of_le (show data.length ≤ size.toNat by omega)]
  · rw [if_neg h1]
    by_cases h2 : size > 0
    · rw [if_pos h2]
      refine ⟨rfl, ?_⟩
      rw [if_pos h2]
      refine ⟨_, rfl, by omega, by simp; omega, by simp, by simp; omega, ?_⟩
      simp only
      have : (data.drop (data.length - size.toNat)).length = size.toNat := by simp; omega
      nth_rewrite 1 3 [← this]
      rw [List.drop_length, List.take_length]
      rfl
    · rw [if_neg h2]
      refine ⟨rfl, ?_⟩
      rw [if_neg h2]
      exact ⟨rfl, rfl⟩

theorem BufRep.store {size : Int} {l : BufLog E} {b : DataBuffer E} (h : BufRep size l b) (e : E)
    (pushed : List E) : BufRep size ⟨l.stored ++ [e], l.staged, pushed⟩ (b.store e) := by
  unfold DataBuffer.store
  refine ⟨h.pipe, ?_⟩
  have hd := h.data
  by_cases hs : size > 0
  · rw [if_pos hs] at hd ⊢
    obtain ⟨p, hp, hinv⟩ := hd
    obtain ⟨p', data', heq, hinv'⟩ := hinv.push e
    simp only [hp, heq]
    exact ⟨p', rfl, hinv'⟩
  · rw [if_neg hs] at hd ⊢
    simp only [hd.1, Strategy.push, hd.2]
    exact ⟨trivial, trivial⟩

theorem BufRep.applyNext {size : Int} {l : BufLog E} {b : DataBuffer E} (h : BufRep size l b) :
    BufRep size (l.step .applyNext) b.applyNext.1 := by
  unfold DataBuffer.applyNext BufLog.step
  have hp := h.pipe
  cases hs : l.staged with
  | nil => rw [hs] at hp; simp only [hp]; exact h
  | cons e r =>
    rw [hs] at hp
    simp only [hp]
    have : BufRep size { l with staged := r } { b with pipe := r } := ⟨rfl, h.data⟩
    exact this.store e _

theorem BufRep.step {size : Int} {l : BufLog E} {b b' : DataBuffer E} (h : BufRep size l b)
    (o : BufOp E) (ho : b.step o = some b') : BufRep size (l.step o) b' := by
  cases o with
  | push e r =>
    cases r with
    | true =>
      simp only [DataBuffer.step, DataBuffer.push, if_true] at ho
      split at ho
      · cases ho
        exact ⟨by simp [BufLog.step, h.pipe], h.data⟩
      · cases ho
    | false =>
      simp only [DataBuffer.step, DataBuffer.push, Bool.false_eq_true, if_false,
        Option.some.injEq] at ho
      subst ho
      exact h.store e _
  | applyNext =>
    simp only [DataBuffer.step, Option.some.injEq] at ho
    subst ho
    exact h.applyNext

theorem BufRep.run {size : Int} : ∀ (ops : List (BufOp E)) {l : BufLog E} {b b' : DataBuffer E},
    BufRep size l b → b.run ops = some b' → BufRep size (l.run ops) b' := by
  intro ops
  induction ops with
  | nil => intro l b b' h hr; cases hr; exact h
  | cons o os ih =>
    intro l b b' h hr
    unfold DataBuffer.run at hr
    split at hr
    · cases hr
    · rename_i b1 hb1
      exact ih (h.step o hb1) hr

theorem applyLoop_rep {size : Int} : ∀ (n : Nat) {l : BufLog E} {b : DataBuffer E},
    BufRep size l b → b.pipe.length = n →
    BufRep size ⟨l.stored ++ l.staged, [], l.pushed⟩ (DataBuffer.applyLoop n b) := by
  intro n
  induction n with
  | zero =>
    intro l b h hn
    have : l.staged = [] := by rw [← h.pipe]; exact List.length_eq_zero_iff.1 hn
    unfold DataBuffer.applyLoop
    obtain ⟨st, sg, pu⟩ := l
    simp only at this
    subst this
    simpa using h
  | succ n ih =>
    intro l b h hn
    unfold DataBuffer.applyLoop
    have hp := h.pipe
    have hnext := h.applyNext
    cases hs : l.staged with
    | nil => rw [hs] at hp; rw [hp] at hn; simp at hn
    | cons e r =>
      rw [hs] at hp
      have hb : b.applyNext = ({ b with pipe := r }.store e, true) := by
        unfold DataBuffer.applyNext; rw [hp]
      rw [hb]
      simp only
      rw [hb] at hnext
      simp only [BufLog.step, hs] at hnext
      have := ih hnext (by
        rw [hp] at hn
        have hpipe := hnext.pipe
        simp only at hpipe
        rw [hpipe]
        simpa using hn)
      simpa using this

end Distclus
