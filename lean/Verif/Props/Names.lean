import Verif.Model.Names
import Verif.Props.InitFull
/-!
# C105 — names of the initializers and of the statuses
-/
namespace Distclus

namespace Spec

/-- The character `a` is the small letter `b`, or the capital letter of `b`. -/
def SameLetter (a b : Char) : Prop :=
  a = b ∨ ('A' ≤ a ∧ a ≤ 'Z' ∧ b.toNat = a.toNat + 32)

instance (a b : Char) : Decidable (SameLetter a b) := by unfold SameLetter; infer_instance

/-- Two names are the same but for capital letters in the first. -/
def SameName (a b : String) : Prop := List.Forall₂ SameLetter a.toList b.toList

/-- A character of seven bits. -/
def Ascii (c : Char) : Prop := c.toNat < 128

end Spec

open Spec

private theorem letters_aux :
    ∀ n < 128, ∀ b ∈ "givenprad".toList,
      (Char.ofNat n).toLower = b ↔ SameLetter (Char.ofNat n) b := by decide +kernel

private theorem lower_iff {lower : Char → Char} (hl : ∀ c, Ascii c → lower c = c.toLower) {a b : Char}
    (ha : Ascii a) (hb : b ∈ "givenprad".toList) : lower a = b ↔ SameLetter a b := by
  have := letters_aux a.toNat ha b hb
  rw [Char.ofNat_toNat] at this
  rw [hl a ha]; exact this

private theorem map_iff {lower : Char → Char} (hl : ∀ c, Ascii c → lower c = c.toLower)
    {l m : List Char} (ha : ∀ c ∈ l, Ascii c) (hm : ∀ b ∈ m, b ∈ "givenprad".toList) :
    l.map lower = m ↔ List.Forall₂ SameLetter l m := by
  induction l generalizing m with
  | nil =>
    cases m with
    | nil => simp
    | cons b m => exact ⟨fun h => by simp at h, fun h => nomatch h⟩
  | cons a l ih =>
    cases m with
    | nil => exact ⟨fun h => by simp at h, fun h => nomatch h⟩
    | cons b m =>
      simp only [List.map_cons, List.cons.injEq, List.forall₂_cons]
      rw [lower_iff hl (ha a (by simp)) (hm b (by simp)),
        ih (fun c hc => ha c (by simp [hc])) (fun c hc => hm c (by simp [hc]))]

private theorem key_iff {lower : Char → Char} (hl : ∀ c, Ascii c → lower c = c.toLower)
    {name key : String} (ha : ∀ c ∈ name.toList, Ascii c)
    (hm : ∀ b ∈ key.toList, b ∈ "givenprad".toList) :
    stringsToLower lower name = key ↔ SameName name key := by
  rw [SameName, ← map_iff hl ha hm, stringsToLower]
  constructor
  · rintro h; rw [← h, String.toList_ofList]
  · intro h; rw [h, String.ofList_toList]

/-- **C105.** With a name made of seven-bit characters, `CreateInitializer` gives the first-elements
initializer for `given`, k-means++ for `pp` and the random one for `rand`, whatever the case of the
letters, and the nil function for any other name. `lower` is `unicode.ToLower`: nothing is supposed
of it but its values on the seven-bit characters. -/
theorem C105_createInitializer (lower : Char → Char) (hl : ∀ c, Ascii c → lower c = c.toLower)
    (name : String) (ha : ∀ c ∈ name.toList, Ascii c) :
    (createInitializer (stringsToLower lower) name = some .given ↔ SameName name "given") ∧
    (createInitializer (stringsToLower lower) name = some .pp ↔ SameName name "pp") ∧
    (createInitializer (stringsToLower lower) name = some .rand ↔ SameName name "rand") ∧
    (createInitializer (stringsToLower lower) name = none ↔
      ¬ SameName name "given" ∧ ¬ SameName name "pp" ∧ ¬ SameName name "rand") := by
  rw [← key_iff hl ha (key := "given") (by decide), ← key_iff hl ha (key := "pp") (by decide),
    ← key_iff hl ha (key := "rand") (by decide)]
  unfold createInitializer
  generalize stringsToLower lower name = key
  by_cases h1 : key = "given"
  · subst h1; decide
  by_cases h2 : key = "pp"
  · subst h2; decide
  by_cases h3 : key = "rand"
  · subst h3; decide
  simp [h1, h2, h3]

section
variable {E F : Type} [Zero F] [One F] [Neg F] [LT F] [DecidableLT F] [Add F] [Sub F] [Mul F] [BEq F]

/-- **C105.** The initializer made from a name which is none of the three panics when it is called,
whatever the data; nothing is reported before (`NewAlgo` keeps the nil function). -/
theorem C105_unknown (lower : Char → Char) (hl : ∀ c, Ascii c → lower c = c.toLower)
    (name : String) (ha : ∀ c ∈ name.toList, Ascii c) (h1 : ¬ SameName name "given")
    (h2 : ¬ SameName name "pp") (h3 : ¬ SameName name "rand") (k : Int) (elemts : List E)
    (space : Space E F) (first : Nat) (ints : List Nat) (floats : List F) :
    callInitializer (createInitializer (stringsToLower lower) name) k elemts space first ints floats = some .panic := by
  have := (C105_createInitializer lower hl name ha).2.2.2.2 ⟨h1, h2, h3⟩
  simp [callInitializer, this]

/-- **C105.** With the name `given`, the centroids are copies of the first `k` elements. -/
theorem C105_given (lower : Char → Char) (hl : ∀ c, Ascii c → lower c = c.toLower)
    (name : String) (ha : ∀ c ∈ name.toList, Ascii c) (h : SameName name "given") (k : Nat)
    (hk : 0 < k) (elemts : List E) (hn : k ≤ elemts.length) (space : Space E F) (first : Nat)
    (ints : List Nat) (floats : List F) :
    callInitializer (createInitializer (stringsToLower lower) name) k elemts space first ints floats =
      some (.ret (some (((elemts.take k).map space.copy).map some)) none) := by
  have := (C105_createInitializer lower hl name ha).1.2 h
  have hc : initCheckErr (k : Int) elemts = none := by
    unfold initCheckErr; rw [if_neg (by omega), if_neg (by omega)]
  simp [callInitializer, this, givenFull, hc, givenLoop_eq space k elemts hn]

/-- **C105.** With the names `pp` and `rand` the call is that of `PPInitializer` and of
`RandInitializer`, of which C27–C29, C97, C102 and C103 speak. -/
theorem C105_pp_rand (lower : Char → Char) (hl : ∀ c, Ascii c → lower c = c.toLower)
    (name : String) (ha : ∀ c ∈ name.toList, Ascii c) (k : Int) (elemts : List E)
    (space : Space E F) (first : Nat) (ints : List Nat) (floats : List F) :
    (SameName name "pp" → callInitializer (createInitializer (stringsToLower lower) name) k elemts space first ints floats =
      ppFull k elemts space first floats) ∧
    (SameName name "rand" → callInitializer (createInitializer (stringsToLower lower) name) k elemts space first ints floats =
      randFull k elemts space ints) := by
  have := C105_createInitializer lower hl name ha
  constructor
  · intro h; simp [callInitializer, this.2.1.2 h]
  · intro h; simp [callInitializer, this.2.2.1.2 h]

end

/-- **C105.** `String` of the six statuses gives six different names; any other integer panics. -/
theorem C105_status :
    (∀ s : ClustStatus, (statusString s.toInt).isSome) ∧
    (∀ s t : ClustStatus, statusString s.toInt = statusString t.toInt → s = t) ∧
    (∀ v : Int, (statusString v).isSome ↔ 0 ≤ v ∧ v ≤ 5) ∧
    statusString ClustStatus.created.toInt = some "Created" ∧
    statusString ClustStatus.initializing.toInt = some "Initializing" ∧
    statusString ClustStatus.ready.toInt = some "Ready" ∧
    statusString ClustStatus.running.toInt = some "Running" ∧
    statusString ClustStatus.idle.toInt = some "Idle" ∧
    statusString ClustStatus.finished.toInt = some "Finished" := by
  refine ⟨?_, ?_, ?_, rfl, rfl, rfl, rfl, rfl, rfl⟩
  · intro s; cases s <;> decide
  · intro s t; cases s <;> cases t <;> decide
  · intro v
    unfold statusString
    split
    · simp; omega
    · simp [statusNames]; omega

/-- The names of the repository's own test (kmeans/init_test.go:24-30). -/
example : createInitializer (stringsToLower Char.toLower) "GiveN" = some .given ∧
    createInitializer (stringsToLower Char.toLower) "pp" = some .pp ∧
    createInitializer (stringsToLower Char.toLower) "RAND" = some .rand ∧
    createInitializer (stringsToLower Char.toLower) "unknown" = none := by decide +kernel

/-- Outside the seven-bit characters: `unicode.ToLower` of the capital dotted I is `i`, so that the
name is accepted. -/
example (lower : Char → Char) (h : lower 'İ' = 'i') (hg : ∀ c ∈ "gven".toList, lower c = c) :
    createInitializer (stringsToLower lower) "gİven" = some .given := by
  have hg' : lower 'g' = 'g' ∧ lower 'v' = 'v' ∧ lower 'e' = 'e' ∧ lower 'n' = 'n' := by
    simpa using hg
  simp [createInitializer, stringsToLower, h, hg']

end Distclus
