import Verif.Lemmas.TrieHash
import Mathlib.Data.List.Basic
/-!
# Specification of the trie root hash and its relation to the representation

The specification only speaks about a list of byte strings (the members).
-/

namespace Verif.Trie
open Verif

/-- The suffixes after a first byte `b`. -/
def tails (b : UInt8) (ss : List Bytes) : List Bytes :=
  ss.filterMap (fun s => match s with
    | [] => none
    | x :: t => if x = b then some t else none)

/-- The entry describing one child in its parent's hashed string. -/
def specEntry (b : UInt8) (v : Bool × Bytes) : Bytes :=
  (if v.1 then 0 else 1) :: UInt8.ofNat v.2.length :: b :: v.2

/-- Specification of a subtrie at `path` with member suffixes `ss`: a single suffix is a leaf and
shows the suffix itself; several suffixes are an inner node and show the hash of the length-prefixed
path followed by an entry per first byte that occurs, in byte order. The first argument bounds the
length of the suffixes. -/
def specNode (H : Bytes → Bytes) : Nat → Bytes → List Bytes → Bool × Bytes
  | 0, _, _ => (true, [])
  | _ + 1, _, [] => (true, [])
  | n + 1, path, s :: rest =>
    if rest.all (· == s) then (true, s)
    else (false, H (UInt8.ofNat path.length :: (path ++ ((List.range 256).map UInt8.ofNat).flatMap (fun b =>
      if (tails b (s :: rest)).isEmpty then []
      else specEntry b (specNode H n (path ++ [b]) (tails b (s :: rest)))))))

/-- All strings hashed below (and including) the subtrie at `path`. -/
def specStrings (H : Bytes → Bytes) : Nat → Bytes → List Bytes → List Bytes
  | 0, _, _ => []
  | _ + 1, _, [] => []
  | n + 1, path, s :: rest =>
    if rest.all (· == s) then []
    else (UInt8.ofNat path.length :: (path ++ ((List.range 256).map UInt8.ofNat).flatMap (fun b =>
      if (tails b (s :: rest)).isEmpty then []
      else specEntry b (specNode H n (path ++ [b]) (tails b (s :: rest)))))) ::
      ((List.range 256).map UInt8.ofNat).flatMap (fun b =>
        if (tails b (s :: rest)).isEmpty then []
        else specStrings H n (path ++ [b]) (tails b (s :: rest)))

/-- The string whose hash is the root hash of a non-empty set. -/
def rootString (H : Bytes → Bytes) (ss : List Bytes) (n : Nat) : Bytes :=
  (if (specNode H n [] ss).1 then 0 else 1) :: (specNode H n [] ss).2

/-- Specification of the root hash of a set of byte strings. -/
def specRoot (H : Bytes → Bytes) : List Bytes → Bytes
  | [] => List.replicate 32 0
  | s :: rest => H (rootString H (s :: rest) (s.length + 1))

/-- Every string hashed to obtain the root hash of a set. -/
def hashedStrings (H : Bytes → Bytes) : List Bytes → List Bytes
  | [] => []
  | s :: rest => rootString H (s :: rest) (s.length + 1) ::
      specStrings H (s.length + 1) [] (s :: rest)

theorem mem_tails {b : UInt8} {ss : List Bytes} {t : Bytes} : t ∈ tails b ss ↔ b :: t ∈ ss := by
  simp only [tails, List.mem_filterMap]
  constructor
  · rintro ⟨s, hs, h⟩
    cases s with
    | nil => cases h
    | cons x s =>
      simp only at h
      split at h
      · injection h with h; subst h; rename_i e; subst e; exact hs
      · cases h
  · intro h; exact ⟨_, h, by simp⟩

theorem all_eq_iff {s : Bytes} {rest : List Bytes} :
    rest.all (· == s) = true ↔ ∀ t ∈ s :: rest, t = s := by
  simp only [List.all_eq_true, beq_iff_eq, List.mem_cons, forall_eq_or_imp, true_and]

theorem specNode_of_all_eq (H : Bytes → Bytes) {n : Nat} {path s : Bytes} {ss : List Bytes}
    (hne : ss ≠ []) (h : ∀ t ∈ ss, t = s) : specNode H (n + 1) path ss = (true, s) := by
  cases ss with
  | nil => exact absurd rfl hne
  | cons a rest =>
    have ha := h a List.mem_cons_self
    subst ha
    rw [specNode, if_pos (all_eq_iff.2 h)]

theorem specNode_of_two (H : Bytes → Bytes) {n : Nat} {path s t : Bytes} {ss : List Bytes}
    (hs : s ∈ ss) (ht : t ∈ ss) (hst : s ≠ t) :
    specNode H (n + 1) path ss = (false, H (UInt8.ofNat path.length :: (path ++ allBytes.flatMap (fun b =>
      if (tails b ss).isEmpty then []
      else specEntry b (specNode H n (path ++ [b]) (tails b ss)))))) := by
  cases ss with
  | nil => cases hs
  | cons a rest =>
    have : ¬ (rest.all (· == a) = true) := by
      rw [all_eq_iff]; intro h; exact hst (by rw [h s hs, h t ht])
    rw [specNode, if_neg this]; rfl

theorem specStrings_of_two (H : Bytes → Bytes) {n : Nat} {path s t : Bytes} {ss : List Bytes}
    (hs : s ∈ ss) (ht : t ∈ ss) (hst : s ≠ t) :
    specStrings H (n + 1) path ss = (UInt8.ofNat path.length :: (path ++ allBytes.flatMap (fun b =>
      if (tails b ss).isEmpty then []
      else specEntry b (specNode H n (path ++ [b]) (tails b ss))))) ::
      allBytes.flatMap (fun b =>
        if (tails b ss).isEmpty then []
        else specStrings H n (path ++ [b]) (tails b ss)) := by
  cases ss with
  | nil => cases hs
  | cons a rest =>
    have : ¬ (rest.all (· == a) = true) := by
      rw [all_eq_iff]; intro h; exact hst (by rw [h s hs, h t ht])
    rw [specStrings, if_neg this]; rfl

variable {H : Bytes → Bytes}

theorem Rep.spec {g path id S F v} (h : Rep H g path id S F v) : ∀ (n : Nat) (ss : List Bytes),
    (∀ s, s ∈ ss ↔ S s) → (∀ s, S s → s.length < n) → specNode H n path ss = v := by
  induction h with
  | leaf path id S F dty suffix hg hS hF =>
    intro n ss hss hlen
    have hmem : suffix ∈ ss := (hss _).2 ((hS _).2 rfl)
    cases n with
    | zero => exact absurd (hlen suffix ((hS _).2 rfl)) (by omega)
    | succ n =>
      exact specNode_of_all_eq H (List.ne_nil_of_mem hmem) (fun t ht => (hS t).1 ((hss t).1 ht))
  | node path id S F dty h ch FB VB hg hnil hno hrec hF hid hdisj h2 hclean hdirty ih =>
    intro n ss hss hlen
    obtain ⟨s, t, hs, ht, hne⟩ := h2
    cases n with
    | zero => exact absurd (hlen s hs) (by omega)
    | succ n =>
      rw [specNode_of_two H ((hss s).2 hs) ((hss t).2 ht) hne]
      congr 2
      rw [nodeBuffer]; congr 2
      have hb : ∀ b, (if (tails b ss).isEmpty then []
          else specEntry b (specNode H n (path ++ [b]) (tails b ss))) =
          (match ch b with | none => [] | some _ => specEntry b (VB b)) := by
        intro b
        cases hb : ch b with
        | none =>
          have : tails b ss = [] := by
            rw [List.eq_nil_iff_forall_not_mem]; intro u hu
            exact hno b hb u ((hss _).1 (mem_tails.1 hu))
          simp [this]
        | some cb =>
          obtain ⟨u, hu⟩ := (hrec b cb hb).nonempty
          have hu' : u ∈ tails b ss := mem_tails.2 ((hss _).2 hu)
          have : (tails b ss).isEmpty = false := by
            cases htl : tails b ss with
            | nil => rw [htl] at hu'; cases hu'
            | cons _ _ => rfl
          rw [this]
          simp only [Bool.false_eq_true, if_false]
          rw [ih b cb hb n (tails b ss) (fun s => mem_tails.trans (hss _)) (fun s hs => by
            have := hlen _ hs; rw [List.length_cons] at this; omega)]
      rw [List.flatMap_congr (fun b _ => hb b)]
      rw [childViews]
      generalize allBytes = l
      induction l with
      | nil => rfl
      | cons b l ihl =>
        cases hb : ch b with
        | none => simp only [List.flatMap_cons, List.filterMap_cons, hb, Option.map_none, ihl, List.nil_append]
        | some cb =>
          rw [List.flatMap_cons, List.filterMap_cons, ihl]
          simp only [hb, Option.map_some, List.flatMap_cons, specEntry]

/-- Only membership matters. -/
theorem specNode_congr (H : Bytes → Bytes) : ∀ (n : Nat) (path : Bytes) (ss ss' : List Bytes),
    (∀ s, s ∈ ss ↔ s ∈ ss') → specNode H n path ss = specNode H n path ss' := by
  intro n
  induction n with
  | zero => intros; rfl
  | succ n ih =>
    intro path ss ss' h
    cases ss with
    | nil =>
      have : ss' = [] := by
        rw [List.eq_nil_iff_forall_not_mem]; intro s hs; have := (h s).2 hs; cases this
      rw [this]
    | cons a rest =>
      by_cases hall : ∀ t ∈ a :: rest, t = a
      · rw [specNode_of_all_eq H (by simp) hall]
        rw [specNode_of_all_eq H (List.ne_nil_of_mem ((h a).1 List.mem_cons_self))
          (fun t ht => hall t ((h t).2 ht))]
      · have : ∃ t ∈ a :: rest, a ≠ t := by
          by_contra hc
          exact hall (fun t ht => by
            by_contra e; exact hc ⟨t, ht, fun e' => e e'.symm⟩)
        obtain ⟨t, ht, hne⟩ := this
        rw [specNode_of_two H List.mem_cons_self ht hne,
          specNode_of_two H ((h a).1 List.mem_cons_self) ((h t).1 ht) hne]
        congr 5
        funext b
        have hb : ∀ s, s ∈ tails b (a :: rest) ↔ s ∈ tails b ss' := fun s => by
          rw [mem_tails, mem_tails]; exact h _
        have he : (tails b (a :: rest)).isEmpty = (tails b ss').isEmpty := by
          rw [Bool.eq_iff_iff, List.isEmpty_iff, List.isEmpty_iff, List.eq_nil_iff_forall_not_mem,
            List.eq_nil_iff_forall_not_mem]
          exact forall_congr' (fun s => not_congr (hb s))
        rw [he, ih _ _ _ hb]

theorem specRoot_congr (H : Bytes → Bytes) {L : Nat} {ss ss' : List Bytes}
    (hl : ∀ s ∈ ss, s.length = L) (h : ∀ s, s ∈ ss ↔ s ∈ ss') : specRoot H ss = specRoot H ss' := by
  cases ss with
  | nil =>
    have : ss' = [] := by
      rw [List.eq_nil_iff_forall_not_mem]; intro s hs; have := (h s).2 hs; cases this
    rw [this]
  | cons a rest =>
    cases ss' with
    | nil => have := (h a).1 List.mem_cons_self; cases this
    | cons a' rest' =>
      have e1 := hl a List.mem_cons_self
      have e2 := hl a' ((h a').2 List.mem_cons_self)
      simp only [specRoot, rootString]
      rw [e1, e2, specNode_congr H (L + 1) [] _ _ h]

/-! ## Binding -/

theorem entries_third {f : UInt8 → Bytes} (hf : ∀ b, f b = [] ∨ ∃ v, f b = specEntry b v) :
    ∀ (l : List UInt8), l.flatMap f = [] ∨ ∃ b ∈ l, ∃ x y z, l.flatMap f = x :: y :: b :: z := by
  intro l
  induction l with
  | nil => exact Or.inl rfl
  | cons b l ih =>
    rcases hf b with h | ⟨v, h⟩
    · rw [List.flatMap_cons, h, List.nil_append]
      rcases ih with ih | ⟨b', hb', ih⟩
      · exact Or.inl ih
      · exact Or.inr ⟨b', List.mem_cons_of_mem _ hb', ih⟩
    · refine Or.inr ⟨b, List.mem_cons_self, (if v.1 then 0 else 1), UInt8.ofNat v.2.length,
        v.2 ++ l.flatMap f, ?_⟩
      rw [List.flatMap_cons, h, specEntry, List.cons_append, List.cons_append, List.cons_append]

theorem entries_inj (e1 e2 : UInt8 → Option View)
    (hll : ∀ b v w, e1 b = some v → e2 b = some w → v.1 = w.1 →
      UInt8.ofNat v.2.length = UInt8.ofNat w.2.length → v.2.length = w.2.length) :
    ∀ (l : List UInt8), l.Nodup →
    l.flatMap (fun b => ((e1 b).map (specEntry b)).getD []) =
      l.flatMap (fun b => ((e2 b).map (specEntry b)).getD []) → ∀ b ∈ l, e1 b = e2 b := by
  have hf : ∀ (e : UInt8 → Option View) b, ((e b).map (specEntry b)).getD [] = [] ∨
      ∃ v, ((e b).map (specEntry b)).getD [] = specEntry b v := by
    intro e b; cases e b with
    | none => exact Or.inl rfl
    | some v => exact Or.inr ⟨v, rfl⟩
  intro l
  induction l with
  | nil => intro _ _ b hb; cases hb
  | cons a l ih =>
    intro hnd heq
    rw [List.nodup_cons] at hnd
    rw [List.flatMap_cons, List.flatMap_cons] at heq
    have step : ∀ (e e' : UInt8 → Option View) (v : View), e a = none → e' a = some v →
        ((e a).map (specEntry a)).getD [] ++ l.flatMap (fun b => ((e b).map (specEntry b)).getD []) =
        ((e' a).map (specEntry a)).getD [] ++ l.flatMap (fun b => ((e' b).map (specEntry b)).getD []) →
        False := by
      intro e e' v hn hs heq
      rw [hn, hs] at heq
      simp only [Option.map_none, Option.getD_none, List.nil_append, Option.map_some, Option.getD_some,
        specEntry, List.cons_append] at heq
      rcases entries_third (hf e) l with h | ⟨b, hb, x, y, z, h⟩
      · rw [h] at heq; cases heq
      · rw [h] at heq
        injection heq with _ heq; injection heq with _ heq; injection heq with e _
        subst e; exact hnd.1 hb
    cases ha : e1 a with
    | none =>
      cases ha2 : e2 a with
      | none =>
        rw [ha, ha2] at heq
        simp only [Option.map_none, Option.getD_none, List.nil_append] at heq
        intro b hb
        rcases List.mem_cons.1 hb with rfl | hb
        · rw [ha, ha2]
        · exact ih hnd.2 heq b hb
      | some v => exact (step e1 e2 v ha ha2 heq).elim
    | some v =>
      cases ha2 : e2 a with
      | none => exact (step e2 e1 v ha2 ha heq.symm).elim
      | some w =>
        rw [ha, ha2] at heq
        simp only [Option.map_some, Option.getD_some, specEntry, List.cons_append] at heq
        injection heq with ht heq
        injection heq with hl heq
        injection heq with _ heq
        have ht' : v.1 = w.1 := by
          revert ht; cases v.1 <;> cases w.1 <;> simp
        have hlen := hll a v w ha ha2 ht' hl
        obtain ⟨hh, heq⟩ := List.append_inj heq hlen
        have hvw : v = w := by
          obtain ⟨v1, v2⟩ := v; obtain ⟨w1, w2⟩ := w
          simp only at hh ht
          cases v1 <;> cases w1 <;> simp_all
        intro b hb
        rcases List.mem_cons.1 hb with rfl | hb
        · rw [ha, ha2, hvw]
        · exact ih hnd.2 heq b hb

/-- A leaf shows a member, an inner node 32 bytes. -/
theorem specNode_len (H : Bytes → Bytes) (hH : ∀ x, (H x).length = 32) : ∀ (n : Nat) (path : Bytes)
    (ss : List Bytes), ss ≠ [] → 0 < n → ((specNode H n path ss).1 = true ∧ (specNode H n path ss).2 ∈ ss) ∨
      ((specNode H n path ss).1 = false ∧ (specNode H n path ss).2.length = 32)
  | 0, _, _, _, h => absurd h (by omega)
  | _ + 1, _, [], h, _ => absurd rfl h
  | n + 1, path, s :: rest, _, _ => by
    rw [specNode]; split
    · exact Or.inl ⟨rfl, List.mem_cons_self⟩
    · exact Or.inr ⟨rfl, hH _⟩

/-- No member is a start of another. -/
def PrefixFree (ss : List Bytes) : Prop := ∀ a ∈ ss, ∀ b ∈ ss, a <+: b → a = b

/-- The lengths of members of the two sets can be told apart by one byte. -/
def LenByte (ss1 ss2 : List Bytes) : Prop :=
  ∀ s ∈ ss1, ∀ t ∈ ss2, s.length % 256 = t.length % 256 → s.length = t.length

theorem PrefixFree.of_len {ss : List Bytes} {L : Nat} (h : ∀ s ∈ ss, s.length = L) : PrefixFree ss :=
  fun a ha b hb p => p.eq_of_length (by rw [h a ha, h b hb])

theorem PrefixFree.tails {ss : List Bytes} (h : PrefixFree ss) (b : UInt8) : PrefixFree (tails b ss) :=
  fun x hx y hy p => (List.cons.inj (h _ (mem_tails.1 hx) _ (mem_tails.1 hy) (List.cons_prefix_cons.2 ⟨rfl, p⟩))).2

theorem PrefixFree.nil_not_mem {ss : List Bytes} (h : PrefixFree ss) {s t : Bytes} (hs : s ∈ ss) (ht : t ∈ ss)
    (hne : s ≠ t) : [] ∉ ss := fun hn =>
  hne ((h _ hn _ hs List.nil_prefix).symm.trans (h _ hn _ ht List.nil_prefix))

theorem LenByte.tails {ss1 ss2 : List Bytes} (h : LenByte ss1 ss2) (b : UInt8) : LenByte (tails b ss1) (tails b ss2) := by
  intro s hs t ht e
  have := h _ (mem_tails.1 hs) _ (mem_tails.1 ht) (by rw [List.length_cons, List.length_cons]; omega)
  rw [List.length_cons, List.length_cons] at this; omega

/-- Two subtries at the same path that show the same view hold the same suffixes, or the strings
hashed in them contain a collision. -/
theorem specNode_binding (H : Bytes → Bytes) (hH : ∀ x, (H x).length = 32) :
    ∀ (n1 n2 : Nat) (path : Bytes) (ss1 ss2 : List Bytes), ss1 ≠ [] → ss2 ≠ [] →
    (∀ s ∈ ss1, s.length < n1) → (∀ s ∈ ss2, s.length < n2) → PrefixFree ss1 → PrefixFree ss2 → LenByte ss1 ss2 →
    specNode H n1 path ss1 = specNode H n2 path ss2 →
    (∀ s, s ∈ ss1 ↔ s ∈ ss2) ∨
      ∃ x ∈ specStrings H n1 path ss1, ∃ y ∈ specStrings H n2 path ss2, x ≠ y ∧ H x = H y := by
  intro n1
  induction n1 with
  | zero =>
    intro n2 path ss1 ss2 hne1 hne2 hl1
    obtain ⟨s, hs⟩ := List.exists_mem_of_ne_nil _ hne1
    exact absurd (hl1 s hs) (by omega)
  | succ n1 ih =>
    intro n2 path ss1 ss2 hne1 hne2 hl1 hl2 hp1 hp2 hb heq
    cases n2 with
    | zero =>
      obtain ⟨s, hs⟩ := List.exists_mem_of_ne_nil _ hne2
      exact absurd (hl2 s hs) (by omega)
    | succ n2 =>
      have dich : ∀ ss : List Bytes, ss ≠ [] → (∃ s, ∀ t, t ∈ ss ↔ t = s) ∨ ∃ s ∈ ss, ∃ t ∈ ss, s ≠ t := by
        intro ss hne
        cases ss with
        | nil => exact absurd rfl hne
        | cons a rest =>
          by_cases hall : ∀ t ∈ a :: rest, t = a
          · exact Or.inl ⟨a, fun t => ⟨hall t, fun e => by rw [e]; exact List.mem_cons_self⟩⟩
          · right
            by_contra hc
            exact hall (fun t ht => by
              by_contra e; exact hc ⟨t, ht, a, List.mem_cons_self, e⟩)
      rcases dich ss1 hne1 with ⟨s, hs⟩ | ⟨s, hs, t, ht, hst⟩
      · rw [specNode_of_all_eq H hne1 (fun t ht => (hs t).1 ht)] at heq
        rcases dich ss2 hne2 with ⟨s', hs'⟩ | ⟨s', hs', t', ht', hst'⟩
        · rw [specNode_of_all_eq H hne2 (fun t ht => (hs' t).1 ht)] at heq
          injection heq with _ heq
          left; intro u; rw [hs, hs', heq]
        · rw [specNode_of_two H hs' ht' hst'] at heq
          injection heq with heq _; cases heq
      · rw [specNode_of_two H hs ht hst] at heq
        rcases dich ss2 hne2 with ⟨s', hs'⟩ | ⟨s', hs', t', ht', hst'⟩
        · rw [specNode_of_all_eq H hne2 (fun t ht => (hs' t).1 ht)] at heq
          injection heq with heq _; cases heq
        · rw [specNode_of_two H hs' ht' hst'] at heq
          injection heq with _ heq
          rw [specStrings_of_two H hs ht hst, specStrings_of_two H hs' ht' hst']
          by_cases hbuf : (UInt8.ofNat path.length :: (path ++ allBytes.flatMap (fun b =>
              if (tails b ss1).isEmpty then []
              else specEntry b (specNode H n1 (path ++ [b]) (tails b ss1))))) =
              (UInt8.ofNat path.length :: (path ++ allBytes.flatMap (fun b =>
              if (tails b ss2).isEmpty then []
              else specEntry b (specNode H n2 (path ++ [b]) (tails b ss2)))))
          · injection hbuf with _ hbuf
            have hbuf := List.append_cancel_left hbuf
            let e1 : UInt8 → Option View := fun b => if (tails b ss1).isEmpty then none
              else some (specNode H n1 (path ++ [b]) (tails b ss1))
            let e2 : UInt8 → Option View := fun b => if (tails b ss2).isEmpty then none
              else some (specNode H n2 (path ++ [b]) (tails b ss2))
            have k1 : ∀ b, (if (tails b ss1).isEmpty then []
              else specEntry b (specNode H n1 (path ++ [b]) (tails b ss1))) =
              ((e1 b).map (specEntry b)).getD [] := by
              intro b; simp only [e1]; split <;> rfl
            have k2 : ∀ b, (if (tails b ss2).isEmpty then []
              else specEntry b (specNode H n2 (path ++ [b]) (tails b ss2))) =
              ((e2 b).map (specEntry b)).getD [] := by
              intro b; simp only [e2]; split <;> rfl
            rw [List.flatMap_congr (fun b _ => k1 b), List.flatMap_congr (fun b _ => k2 b)] at hbuf
            have hcons : ∀ (n : Nat) (ss : List Bytes) b, (∀ s ∈ ss, s.length < n + 1) →
                ∀ s ∈ tails b ss, s.length < n := by
              intro n ss b h s hs
              have := h _ (mem_tails.1 hs)
              rw [List.length_cons] at this; omega
            have hview : ∀ (n : Nat) (ss : List Bytes) (b : UInt8) (v : View), (∀ s ∈ ss, s.length < n + 1) →
                (if (tails b ss).isEmpty then none else some (specNode H n (path ++ [b]) (tails b ss))) = some v →
                (v.1 = true ∧ v.2 ∈ tails b ss) ∨ (v.1 = false ∧ v.2.length = 32) := by
              intro n ss b v h hv
              split at hv
              · cases hv
              · rename_i hne
                injection hv with hv; subst hv
                have hne' : tails b ss ≠ [] := fun e => hne (by rw [e]; rfl)
                obtain ⟨u, hu⟩ := List.exists_mem_of_ne_nil _ hne'
                have := hcons n ss b h u hu
                exact specNode_len H hH _ _ _ hne' (by omega)
            have hv := entries_inj e1 e2
              (by
                intro b v w h1 h2 hvw hl
                have hl := congrArg UInt8.toNat hl
                simp only [UInt8.toNat_ofNat'] at hl
                rcases hview n1 ss1 b v hl1 h1 with ⟨a1, a2⟩ | ⟨a1, a2⟩
                · rcases hview n2 ss2 b w hl2 h2 with ⟨c1, c2⟩ | ⟨c1, c2⟩
                  · exact hb.tails b _ a2 _ c2 hl
                  · rw [a1, c1] at hvw; cases hvw
                · rcases hview n2 ss2 b w hl2 h2 with ⟨c1, c2⟩ | ⟨c1, c2⟩
                  · rw [a1, c1] at hvw; cases hvw
                  · rw [a2, c2])
              allBytes nodup_allBytes hbuf
            by_cases hcol : ∃ b, (tails b ss1).isEmpty = false ∧ (tails b ss2).isEmpty = false ∧
                ∃ x ∈ specStrings H n1 (path ++ [b]) (tails b ss1),
                ∃ y ∈ specStrings H n2 (path ++ [b]) (tails b ss2), x ≠ y ∧ H x = H y
            · right
              obtain ⟨b, hb1', hb2', x, hx, y, hy, q⟩ := hcol
              refine ⟨x, List.mem_cons_of_mem _ (List.mem_flatMap.2 ⟨b, mem_allBytes b, ?_⟩), y,
                List.mem_cons_of_mem _ (List.mem_flatMap.2 ⟨b, mem_allBytes b, ?_⟩), q⟩
              · simp only [hb1', Bool.false_eq_true, if_false]; exact hx
              · simp only [hb2', Bool.false_eq_true, if_false]; exact hy
            · left
              have key : ∀ b u, u ∈ tails b ss1 ↔ u ∈ tails b ss2 := by
                intro b
                have hvb := hv b (mem_allBytes b)
                simp only [e1, e2] at hvb
                cases he1 : (tails b ss1).isEmpty with
                | true =>
                  cases he2 : (tails b ss2).isEmpty with
                  | true =>
                    rw [List.isEmpty_iff] at he1 he2
                    intro u; rw [he1, he2]
                  | false => simp [he1, he2] at hvb
                | false =>
                  cases he2 : (tails b ss2).isEmpty with
                  | true => simp [he1, he2] at hvb
                  | false =>
                    simp only [he1, he2, Bool.false_eq_true, if_false, Option.some.injEq] at hvb
                    have n1' : tails b ss1 ≠ [] := by intro h; rw [h] at he1; cases he1
                    have n2' : tails b ss2 ≠ [] := by intro h; rw [h] at he2; cases he2
                    rcases ih n2 (path ++ [b]) _ _ n1' n2' (hcons n1 ss1 b hl1) (hcons n2 ss2 b hl2)
                      (hp1.tails b) (hp2.tails b) (hb.tails b) hvb with h | h
                    · exact h
                    · exact absurd ⟨b, he1, he2, h⟩ hcol
              intro u
              cases u with
              | nil =>
                exact ⟨fun h => absurd h (hp1.nil_not_mem hs ht hst),
                  fun h => absurd h (hp2.nil_not_mem hs' ht' hst')⟩
              | cons b u => rw [← mem_tails, ← mem_tails]; exact key b u
          · right
            exact ⟨_, List.mem_cons_self, _, List.mem_cons_self, hbuf, heq⟩

end Verif.Trie
