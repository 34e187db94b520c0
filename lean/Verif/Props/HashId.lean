import Verif.Model.HashId
/-!
# C14, C70: domain separation tags and network tags
-/

namespace Verif.Props
open Verif Verif.HashId

theorem mem_all (h : HashId) : h ∈ HashId.all := by cases h <;> decide

theorem hashId_not_prefix_table :
    ∀ a ∈ HashId.all, ∀ b ∈ HashId.all, a.bytes <+: b.bytes → a = b := by decide +kernel

/-- C14: no domain tag is a prefix of another one. -/
theorem C14_prefix_free (a b : HashId) (h : a.bytes <+: b.bytes) : a = b :=
  hashId_not_prefix_table a (mem_all a) b (mem_all b) h

/-- C14: the hashed byte string determines both the kind of the object and its
payload; objects of different kinds never have the same representation. -/
theorem C14_domain_separation (o₁ o₂ : ToBeHashed) (h : hashRep o₁ = hashRep o₂) : o₁ = o₂ := by
  obtain ⟨i₁, d₁⟩ := o₁
  obtain ⟨i₂, d₂⟩ := o₂
  simp only [hashRep] at h
  have : i₁ = i₂ := by
    have h1 : i₁.bytes <+: i₂.bytes ++ d₂ := h ▸ List.prefix_append _ _
    have h2 : i₂.bytes <+: i₂.bytes ++ d₂ := List.prefix_append _ _
    rcases Nat.le_total i₁.bytes.length i₂.bytes.length with hl | hl
    · exact C14_prefix_free _ _ (List.prefix_of_prefix_length_le h1 h2 hl)
    · exact (C14_prefix_free _ _ (List.prefix_of_prefix_length_le h2 h1 hl)).symm
  subst this
  simpa using h

/-- C14: equal object hashes mean equal kind and payload, or the two strings that were hashed collide. -/
theorem C14_hash_obj_injective {D : Type} (hash : Bytes → D) (o₁ o₂ : ToBeHashed)
    (h : hashObj hash o₁ = hashObj hash o₂) : (o₁.id = o₂.id ∧ o₁.data = o₂.data) ∨
    (o₁.id.bytes ++ o₁.data ≠ o₂.id.bytes ++ o₂.data ∧
      hash (o₁.id.bytes ++ o₁.data) = hash (o₂.id.bytes ++ o₂.data)) := by
  by_cases e : hashRep o₁ = hashRep o₂
  · left; simp [C14_domain_separation o₁ o₂ e]
  · exact Or.inr ⟨e, h⟩

-- two objects with payloads that look alike hash different strings
example : hashRep ⟨.payload, []⟩ ≠ hashRep ⟨.program, []⟩ ∧
    hashRep ⟨.paysetFlat, [0x50]⟩ ≠ hashRep ⟨.payload, [0x46]⟩ := by
  refine ⟨?_, ?_⟩ <;> decide

/-- Specification: a list of tags encoded with comma separators. -/
def joinComma : List Tag → List Char
  | [] => []
  | [t] => t.chars
  | t :: ts => t.chars ++ ',' :: joinComma ts

theorem tag_mem_all (t : Tag) : t ∈ Tag.all := by cases t <;> decide

theorem tag_chars_injective (a b : Tag) (h : a.chars = b.chars) : a = b := by
  have : ∀ a ∈ Tag.all, ∀ b ∈ Tag.all, a.chars = b.chars → a = b := by decide +kernel
  exact this a (tag_mem_all a) b (tag_mem_all b) h

/-- C70: every tag has two characters and contains no comma; distinct tags differ. -/
theorem C70_tags_wellformed (t : Tag) :
    t.chars.length = 2 ∧ ',' ∉ t.chars ∧ ∀ t', t.chars = t'.chars → t = t' :=
  ⟨by cases t <;> rfl, by cases t <;> decide, fun t' => tag_chars_injective t t'⟩

/-- C70: a comma separated list of tags determines the list. -/
theorem C70_comma_lists_unambiguous (l₁ l₂ : List Tag) (h : joinComma l₁ = joinComma l₂) :
    l₁ = l₂ := by
  have hlen : ∀ t : Tag, t.chars.length = 2 := fun t => (C70_tags_wellformed t).1
  have hne : ∀ t : Tag, t.chars ≠ [] := fun t e => by have := hlen t; rw [e] at this; cases this
  induction l₁ generalizing l₂ with
  | nil =>
    match l₂, h with
    | [], _ => rfl
    | [t], h => exact absurd h.symm (by simpa [joinComma] using hne t)
    | t :: s :: ts, h => simp [joinComma] at h
  | cons a l₁ ih =>
    match l₁, l₂, h with
    | [], [], h => exact absurd h (by simpa [joinComma] using hne a)
    | [], [t], h => rw [tag_chars_injective a t (by simpa [joinComma] using h)]
    | [], t :: s :: ts, h =>
      have := congrArg List.length h
      simp [joinComma, hlen] at this
    | b :: l, [], h => simp [joinComma] at h
    | b :: l, [t], h =>
      have := congrArg List.length h
      simp [joinComma, hlen] at this
    | b :: l, t :: s :: ts, h =>
      have h' : a.chars ++ ',' :: joinComma (b :: l) = t.chars ++ ',' :: joinComma (s :: ts) := by
        simpa [joinComma] using h
      obtain ⟨e1, e2⟩ := List.append_inj h' (by rw [hlen, hlen])
      rw [tag_chars_injective a t e1, ih (s :: ts) (by simpa using e2)]

example : joinComma [.pingTag, .txTag] = ['p', 'i', ',', 'T', 'X'] := by decide

/-- A case of `C14_prefix_free` and `C14_domain_separation`. -/
example (x y : Bytes) : ¬ HashId.payload.bytes <+: HashId.paysetFlat.bytes ∧
    hashRep ⟨.payload, x⟩ ≠ hashRep ⟨.paysetFlat, y⟩ :=
  ⟨fun h => absurd (C14_prefix_free _ _ h) (by decide), fun h => by
    have := C14_domain_separation _ _ h
    simp at this⟩

end Verif.Props
