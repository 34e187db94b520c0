import Verif.Model.Trie
import Mathlib.Data.List.Nodup
/-!
# Node serialisation round trip
-/

namespace Verif.Trie
open Verif

theorem readVarint_varint (n : Nat) (rest : Bytes) : readVarint (varint n ++ rest) = some (n, rest) := by
  induction n using Nat.strongRecOn with
  | _ n ih =>
    rw [varint]
    split
    · rename_i h
      simp only [List.singleton_append, readVarint, UInt8.toNat_ofNat']
      rw [Nat.mod_eq_of_lt (by omega), if_pos h]
    · rename_i h
      have hb : (UInt8.ofNat (n % 128 + 128)).toNat = n % 128 + 128 := by
        rw [UInt8.toNat_ofNat']; omega
      rw [List.cons_append, readVarint, hb, if_neg (by omega), ih (n / 128) (by omega)]
      simp only [Option.some.injEq, Prod.mk.injEq, and_true]
      omega

theorem varint_ne_nil (n : Nat) : varint n ≠ [] := by
  rw [varint]; split <;> simp

theorem serialize_ne_nil (n : Node) : n.serialize ≠ [] := by
  rw [Node.serialize]
  intro h
  have := (List.append_eq_nil_iff.1 (List.append_eq_nil_iff.1 h).1).1
  exact varint_ne_nil _ this

/-- Reading a list of written children applies the updates one by one. -/
theorem readChildren_write (l : List (UInt8 × Nat)) (ch : Children) :
    readChildren ch (l.flatMap (fun p => p.1 :: varint p.2))
      = some (l.foldl (fun ch p => upd ch p.1 (some p.2)) ch) := by
  induction l generalizing ch with
  | nil => rw [List.flatMap_nil, readChildren]; rfl
  | cons p l ih =>
    rw [List.flatMap_cons, List.cons_append, readChildren]
    have hr := readVarint_varint p.2 (l.flatMap (fun p => p.1 :: varint p.2))
    split
    · rename_i h; rw [hr] at h; cases h
    · rename_i id rest h
      rw [hr] at h
      simp only [Option.some.injEq, Prod.mk.injEq] at h
      obtain ⟨rfl, rfl⟩ := h
      rw [ih]; rfl

theorem mem_allBytes (b : UInt8) : b ∈ allBytes := by
  simp only [allBytes, List.mem_map, List.mem_range]
  exact ⟨b.toNat, b.toNat_lt, by simp⟩

theorem nodup_allBytes : allBytes.Nodup := by
  rw [allBytes, List.nodup_map_iff_inj_on List.nodup_range]
  intro x hx y hy h
  have := congrArg UInt8.toNat h
  rw [List.mem_range] at hx hy
  rw [UInt8.toNat_ofNat', UInt8.toNat_ofNat', Nat.mod_eq_of_lt (by omega), Nat.mod_eq_of_lt (by omega)] at this
  exact this

theorem foldl_upd (l : List UInt8) (hl : l.Nodup) (ch acc : Children) (b : UInt8) :
    (l.filterMap (fun b => (ch b).map (fun id => (b, id)))).foldl
      (fun ch p => upd ch p.1 (some p.2)) acc b
      = if b ∈ l ∧ ch b ≠ none then ch b else acc b := by
  induction l generalizing acc with
  | nil => simp
  | cons x l ih =>
    rw [List.nodup_cons] at hl
    rw [List.filterMap_cons]
    cases hx : ch x with
    | none =>
      simp only [Option.map_none]
      rw [ih hl.2]
      by_cases hb : b = x
      · subst hb; simp [hx]
      · simp [hb]
    | some id =>
      simp only [Option.map_some, List.foldl_cons]
      rw [ih hl.2]
      by_cases hb : b = x
      · subst hb; simp [hl.1, hx, upd]
      · simp [hb, upd]

theorem foldl_childList (ch : Children) :
    (childList ch).foldl (fun ch p => upd ch p.1 (some p.2)) noChildren = ch := by
  funext b
  rw [childList, foldl_upd _ nodup_allBytes]
  by_cases h : ch b = none
  · simp [h, noChildren]
  · simp [h, mem_allBytes]

theorem deserialize_serialize (n : Node) :
    deserialize n.serialize = some { n with dirty := false } := by
  obtain ⟨dirty, hash, children⟩ := n
  rw [deserialize, Node.serialize, List.append_assoc, readVarint_varint]
  simp only
  rw [if_neg (by simp), List.drop_left, List.take_left]
  cases children with
  | none => simp
  | some ch =>
    simp only [if_true]
    rw [readChildren_write, foldl_childList]

end Verif.Trie
