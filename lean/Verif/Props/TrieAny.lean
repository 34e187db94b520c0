import Verif.Props.Trie
/-!
# C05, C140: the merkle trie in every history, whatever the lengths of its elements
-/

namespace Verif.Props
open Verif Verif.Trie

variable {H : Bytes → Bytes}

/-- Run a history on the model, keeping the answer of every call. A call that is refused leaves the trie to the next
one; a crash ends the history. -/
def runAny (H : Bytes → Bytes) (t : Trie) : List TrieOp → List (Res TrieError TrieOut)
  | [] => []
  | op :: ops =>
    match callOk H t op with
    | .ok (o, t') => .ok o :: runAny H t' ops
    | .err e => .err e :: runAny H t ops
    | .panic => [.panic]

/-! ## Specification -/

/-- The greatest length of a member. -/
def longest (ss : List Bytes) : Nat := ss.foldr (fun s n => max s.length n) 0

/-- The root hash of a set of byte strings of any lengths. -/
def anyRoot (H : Bytes → Bytes) (ss : List Bytes) : Bytes :=
  if ss = [] then List.replicate 32 0 else H (rootString H ss (longest ss + 1))

/-- The member is a start of `d`, or `d` a start of the member. -/
def Comparable (s d : Bytes) : Prop := s <+: d ∨ d <+: s

instance (s d : Bytes) : Decidable (Comparable s d) := inferInstanceAs (Decidable (_ ∨ _))

/-- Two members or more start with `d`. -/
def Forks (ss : List Bytes) (d : Bytes) : Prop := ∃ s ∈ ss, ∃ t ∈ ss, s ≠ t ∧ d <+: s ∧ d <+: t

instance (ss : List Bytes) (d : Bytes) : Decidable (Forks ss d) := inferInstanceAs (Decidable (∃ s ∈ ss, _))

/-- What a call answers on a trie holding `ss` whose first element had the length `len`. -/
def anyAnswer (H : Bytes → Bytes) (ss : List Bytes) (len : Nat) : TrieOp → Res TrieError TrieOut
  | .add d =>
    if d ∈ ss then .ok (.flag false)
    else if ∃ s ∈ ss, Comparable s d then .panic
    else .ok (.flag true)
  | .delete d =>
    if ss = [] then .ok (.flag false)
    else if d.length ≠ len then .err .elementLengthMismatch
    else if d ∈ ss then .ok (.flag true)
    else if Forks ss d then .panic
    else .ok (.flag false)
  | .rootHash => .ok (.hash (anyRoot H ss))

/-- The length kept, as a 32-bit number. -/
def anyLen (ss : List Bytes) (len : Nat) : TrieOp → Nat
  | .add d => if ss = [] then d.length % 2 ^ 32 else len
  | _ => len

/-- The answers of a history. -/
def anyAnswers (H : Bytes → Bytes) (ss : List Bytes) (len : Nat) : List TrieOp → List (Res TrieError TrieOut)
  | [] => []
  | op :: ops =>
    match anyAnswer H ss len op with
    | .ok o => .ok o :: anyAnswers H (specStep ss op) (anyLen ss len op) ops
    | .err e => .err e :: anyAnswers H ss len ops
    | .panic => [.panic]

/-! ## The representation never holds a member that is a start of another -/

theorem Rep.prefix_free {g path id S F v} (h : Rep H g path id S F v) : ∀ a b, S a → S b → a <+: b → a = b := by
  induction h with
  | leaf _ _ _ _ _ suffix _ hS _ => intro a b ha hb _; rw [(hS a).1 ha, (hS b).1 hb]
  | node path id S F dty h ch FB VB hg hnil hno hrec hF hid hdisj h2 hclean hdirty ih =>
    intro a b ha hb hp
    cases a with
    | nil => exact absurd ha hnil
    | cons x a =>
      cases b with
      | nil => exact absurd hb hnil
      | cons y b =>
        obtain ⟨e, hp'⟩ := List.cons_prefix_cons.1 hp
        subst e
        cases hx : ch x with
        | none => exact absurd ha (hno x hx a)
        | some c => rw [ih x c hx a b ha hb hp']

theorem find_fork {c : Cache} (hw : c.WF) (d : Bytes) : ∀ (self : Node) {path id S F v},
    c.cache id = some self → Rep H c.cache path id S F v → (∃ s t, S (d ++ s) ∧ S (d ++ t) ∧ s ≠ t) →
    find d self c = .panic := by
  induction d with
  | nil =>
    intro self path id S F v hself hrep ⟨s, t, hs, ht, hne⟩
    cases hrep with
    | leaf _ _ _ _ dty suffix hg hS hF => exact absurd (((hS _).1 hs).trans ((hS _).1 ht).symm) hne
    | node _ _ _ _ dty h ch FB VB hg =>
      rw [hself] at hg; injection hg with hg; subst hg
      rw [find]
  | cons b rest ih =>
    intro self path id S F v hself hrep ⟨s, t, hs, ht, hne⟩
    cases hrep with
    | leaf _ _ _ _ dty suffix hg hS hF =>
      exact absurd (List.append_cancel_left (((hS _).1 hs).trans ((hS _).1 ht).symm)) hne
    | node _ _ _ _ dty h ch FB VB hg hnil hno hrec hF hid hdisj h2 hclean hdirty =>
      rw [hself] at hg; injection hg with hg; subst hg
      cases hb : ch b with
      | none => exact absurd hs (hno b hb _)
      | some cid =>
        have hr := hrec b cid hb
        obtain ⟨child, hchild⟩ := hr.some_of_mem cid hr.mem_root
        have := ih child hchild hr ⟨s, t, hs, ht, hne⟩
        rw [find]; simp only [hb, getNode_ok hw hchild, Res.ok_bind, this]

theorem diffIndex_panic {ε : Type} : ∀ (a b : Bytes), Comparable a b → (diffIndex a b : Res ε Nat) = .panic
  | [], _, _ => by simp [diffIndex]
  | _ :: _, [], _ => by simp [diffIndex]
  | x :: a, y :: b, h => by
    have hxy : x = y ∧ Comparable a b := by
      rcases h with h | h
      · obtain ⟨e, h⟩ := List.cons_prefix_cons.1 h; exact ⟨e, Or.inl h⟩
      · obtain ⟨e, h⟩ := List.cons_prefix_cons.1 h; exact ⟨e.symm, Or.inr h⟩
    rw [diffIndex, if_pos hxy.1, diffIndex_panic a b hxy.2]; rfl

theorem add_comparable {c : Cache} (hw : c.WF) (d : Bytes) : ∀ (self : Node) {path id S F v},
    c.cache id = some self → Rep H c.cache path id S F v → (∃ s, S s ∧ Comparable s d) →
    Verif.Trie.add d self path c = .panic := by
  induction d with
  | nil =>
    intro self path id S F v hself hrep ⟨s, hs, hc⟩
    cases hrep with
    | leaf _ _ _ _ dty suffix hg hS hF =>
      rw [hself] at hg; injection hg with hg; subst hg
      rw [Verif.Trie.add]
      simp only [addLeaf]
      rw [diffIndex_panic _ _ ((hS s).1 hs ▸ hc)]; rfl
    | node _ _ _ _ dty h ch FB VB hg =>
      rw [hself] at hg; injection hg with hg; subst hg
      rw [Verif.Trie.add]
  | cons b rest ih =>
    intro self path id S F v hself hrep ⟨s, hs, hc⟩
    cases hrep with
    | leaf _ _ _ _ dty suffix hg hS hF =>
      rw [hself] at hg; injection hg with hg; subst hg
      rw [Verif.Trie.add]
      simp only [addLeaf]
      rw [diffIndex_panic _ _ ((hS s).1 hs ▸ hc)]; rfl
    | node _ _ _ _ dty h ch FB VB hg hnil hno hrec hF hid hdisj h2 hclean hdirty =>
      rw [hself] at hg; injection hg with hg; subst hg
      cases s with
      | nil => exact absurd hs hnil
      | cons x s =>
        have hxb : x = b ∧ Comparable s rest := by
          rcases hc with h | h
          · obtain ⟨e, h⟩ := List.cons_prefix_cons.1 h; exact ⟨e, Or.inl h⟩
          · obtain ⟨e, h⟩ := List.cons_prefix_cons.1 h; exact ⟨e.symm, Or.inr h⟩
        obtain ⟨e, hc'⟩ := hxb
        subst e
        cases hb : ch x with
        | none => exact absurd hs (hno x hb _)
        | some cid =>
          have hr := hrec x cid hb
          obtain ⟨child, hchild⟩ := hr.some_of_mem cid hr.mem_root
          have := ih child hchild hr ⟨s, hs, hc'⟩
          rw [Verif.Trie.add]; simp only [hb, getNode_ok hw hchild, Res.ok_bind, this, Res.panic_bind]

/-! ## Invariant -/

/-- The trie holds exactly `ss`, stores nothing else, and kept the length `len`. -/
structure AnyInv (H : Bytes → Bytes) (t : Trie) (ss : List Bytes) (len : Nat) : Prop where
  wf : t.cache.WF
  repr : match t.root with
    | none => ss = [] ∧ ∀ i, t.cache.cache i = none
    | some id => t.elementLength = len ∧ ∃ F v, Rep H t.cache.cache [] id (fun s => s ∈ ss) F v ∧
        ∀ i, t.cache.cache i ≠ none → F i

theorem AnyInv.new (len : Nat) : AnyInv H Trie.new [] len := ⟨Cache.WF.new, rfl, fun _ => rfl⟩

theorem noFork_of_not_forks {ss : List Bytes} {d : Bytes} (h : ¬ Forks ss d) : NoFork (fun s => s ∈ ss) d := by
  intro s t hs ht
  by_contra hne
  exact h ⟨_, hs, _, ht, fun e => hne (List.append_cancel_left e), List.prefix_append _ _, List.prefix_append _ _⟩

theorem fork_of_forks {ss : List Bytes} {d : Bytes} (h : Forks ss d) :
    ∃ s t, d ++ s ∈ ss ∧ d ++ t ∈ ss ∧ s ≠ t := by
  obtain ⟨_, hs, _, ht, hne, ⟨s, rfl⟩, ⟨t, rfl⟩⟩ := h
  exact ⟨s, t, hs, ht, fun e => hne (by rw [e])⟩

theorem AnyInv.add {t : Trie} {ss : List Bytes} {len : Nat} (h : AnyInv H t ss len) (d : Bytes) :
    match anyAnswer H ss len (.add d) with
    | .ok o => ∃ t', callOk H t (.add d) = .ok (o, t') ∧ AnyInv H t' (specStep ss (.add d)) (anyLen ss len (.add d))
    | .err _ => False
    | .panic => callOk H t (.add d) = .panic := by
  obtain ⟨root, c, el⟩ := t
  obtain ⟨hw, hrep⟩ := h
  cases root with
  | none =>
    obtain ⟨rfl, hnone⟩ := hrep
    have : anyAnswer H [] len (.add d) = .ok (.flag true) := by simp [anyAnswer]
    rw [this]
    refine ⟨⟨some c.next, c.allocSet ⟨false, d, none⟩, d.length % u32Lim⟩, rfl, allocSet_wf hw _, ?_⟩
    refine ⟨by simp [anyLen, u32Lim], fun i => i = c.next, (true, d), ?_, ?_⟩
    · refine Rep.leaf _ _ _ _ false d ?_ ?_ (fun i => Iff.rfl)
      · simp only [allocSet_cache]; rw [put_same]
      · intro s; simp [specStep]
    · intro i hi
      simp only [allocSet_cache] at hi
      by_contra e
      rw [put_ne _ _ e] at hi; exact hi (hnone i)
  | some id =>
    obtain ⟨hel, F, v, hr, hF⟩ := hrep
    simp only at hel hr hF hw
    subst hel
    obtain ⟨n, hn⟩ := hr.some_of_mem id hr.mem_root
    have hne : ss ≠ [] := by rintro rfl; obtain ⟨s, hs⟩ := hr.nonempty; cases hs
    have hlen : anyLen ss el (.add d) = el := by simp [anyLen, hne]
    rw [hlen]
    simp only [anyAnswer]
    by_cases hmem : d ∈ ss
    · rw [if_pos hmem]
      obtain ⟨r, hfind, hfr⟩ := find_spec hw d n hn hr (fun s t hs ht => by
        have h1 := Rep.prefix_free hr d _ hmem hs (List.prefix_append _ _)
        have h2 := Rep.prefix_free hr d _ hmem ht (List.prefix_append _ _)
        exact List.append_cancel_left (h1.symm.trans h2))
      have : r = true := hfr.2 hmem
      subst this
      refine ⟨⟨some id, c, el⟩, ?_, ?_⟩
      · simp only [callOk, Verif.Trie.Trie.add, getNode_ok hw hn, liftE, Res.ok_bind, hfind, if_true]
      · have : specStep ss (.add d) = ss := by simp [specStep, hmem]
        rw [this]; exact ⟨hw, rfl, F, v, hr, hF⟩
    · rw [if_neg hmem]
      by_cases hcmp : ∃ s ∈ ss, Comparable s d
      · rw [if_pos hcmp]
        have hadd := add_comparable (path := []) hw d n hn hr hcmp
        by_cases hfork : Forks ss d
        · have := find_fork hw d n hn hr (fork_of_forks hfork)
          simp only [callOk, Verif.Trie.Trie.add, getNode_ok hw hn, liftE, Res.ok_bind, this, Res.panic_bind]
        · obtain ⟨r, hfind, hfr⟩ := find_spec hw d n hn hr (noFork_of_not_forks hfork)
          have : r = false := by
            cases r with
            | false => rfl
            | true => exact absurd (hfr.1 rfl) hmem
          subst this
          simp only [callOk, Verif.Trie.Trie.add, getNode_ok hw hn, liftE, Res.ok_bind, hfind, Bool.false_eq_true,
            if_false, hadd, Res.panic_bind]
      · rw [if_neg hcmp]
        have hap : Apart (fun s => s ∈ ss) d := fun s hs =>
          ⟨fun p => hcmp ⟨s, hs, Or.inl p⟩, fun p => hcmp ⟨s, hs, Or.inr p⟩⟩
        obtain ⟨r, hfind, hfr⟩ := find_spec hw d n hn hr (fun s t hs _ => absurd (List.prefix_append d s) (hap _ hs).2)
        have : r = false := by
          cases r with
          | false => rfl
          | true => exact absurd (hfr.1 rfl) hmem
        subst this
        obtain ⟨id', c', hadd, hok⟩ := add_spec (H := H) d n c hw hn hr hap
        obtain ⟨F', v', hr', hnid, hsub, hsup⟩ := hok.rep
        refine ⟨⟨some id', c'.deleteNode id, el⟩, ?_, ?_⟩
        · simp only [callOk, Verif.Trie.Trie.add, getNode_ok hw hn, liftE, Res.ok_bind, hfind, Bool.false_eq_true,
            if_false, hadd]
        · refine ⟨deleteNode_wf hok.wf _, rfl, F', v', ?_, ?_⟩
          · refine (hr'.frame _ (fun i hi => ?_)).congrS (fun s => ?_)
            · simp only [Cache.deleteNode]
              rw [put_ne]; rintro rfl; exact hnid hi
            · simp only [specStep, hmem, if_false, List.mem_cons]; exact Or.comm
          · intro i hi
            simp only [Cache.deleteNode] at hi
            by_cases e : i = id
            · subst e; rw [put_same] at hi; exact absurd rfl hi
            · rw [put_ne _ _ e] at hi
              by_cases hFi : F i ∨ c.next ≤ i
              · exact hsup i e hFi hi
              · have : c'.cache i = c.cache i := hok.frame i (fun h => hFi (Or.inl h)) (by
                  by_contra hge; exact hFi (Or.inr (by omega)))
                rw [this] at hi
                exact absurd (Or.inl (hF i hi)) hFi

theorem AnyInv.delete {t : Trie} {ss : List Bytes} {len : Nat} (h : AnyInv H t ss len) (d : Bytes) :
    match anyAnswer H ss len (.delete d) with
    | .ok o => ∃ t', callOk H t (.delete d) = .ok (o, t') ∧ AnyInv H t' (specStep ss (.delete d)) len
    | .err e => callOk H t (.delete d) = .err e
    | .panic => callOk H t (.delete d) = .panic := by
  obtain ⟨root, c, el⟩ := t
  obtain ⟨hw, hrep⟩ := h
  cases root with
  | none =>
    obtain ⟨rfl, hnone⟩ := hrep
    have : anyAnswer H [] len (.delete d) = .ok (.flag false) := by simp [anyAnswer]
    rw [this]
    exact ⟨⟨none, c, el⟩, rfl, hw, rfl, hnone⟩
  | some id =>
    obtain ⟨hel, F, v, hr, hF⟩ := hrep
    simp only at hel hr hF hw
    subst hel
    obtain ⟨n, hn⟩ := hr.some_of_mem id hr.mem_root
    have hne : ss ≠ [] := by rintro rfl; obtain ⟨s, hs⟩ := hr.nonempty; cases hs
    simp only [anyAnswer]
    rw [if_neg hne]
    by_cases hlenel : d.length ≠ el
    · rw [if_pos hlenel]
      simp only [callOk, Trie.delete, if_pos hlenel, Res.err_bind]
    rw [if_neg hlenel]
    by_cases hmem : d ∈ ss
    · rw [if_pos hmem]
      obtain ⟨r, hfind, hfr⟩ := find_spec hw d n hn hr (fun s t hs ht => by
        have h1 := Rep.prefix_free hr d _ hmem hs (List.prefix_append _ _)
        have h2 := Rep.prefix_free hr d _ hmem ht (List.prefix_append _ _)
        exact List.append_cancel_left (h1.symm.trans h2))
      have : r = true := hfr.2 hmem
      subst this
      cases hleaf : n.isLeaf with
      | true =>
        have honly : ∀ s, s ∈ ss → s = d := by
          cases hr with
          | leaf _ _ _ _ _ suffix _ hS _ =>
            intro s hs; rw [(hS s).1 hs, (hS d).1 hmem]
          | node _ _ _ _ _ _ _ _ _ hg' =>
            rw [hn] at hg'; injection hg' with hg'; subst hg'; simp [Node.isLeaf] at hleaf
        have hFid : ∀ i, F i → i = id := by
          cases hr with
          | leaf _ _ _ _ _ suffix _ _ hF => exact fun i hi => (hF i).1 hi
          | node _ _ _ _ _ _ _ _ _ hg' =>
            rw [hn] at hg'; injection hg' with hg'; subst hg'; simp [Node.isLeaf] at hleaf
        refine ⟨⟨none, c.deleteNode id, 0⟩, ?_, deleteNode_wf hw _, ?_, ?_⟩
        · simp only [callOk, Trie.delete, if_neg hlenel, getNode_ok hw hn, liftE, Res.ok_bind, hfind,
            Bool.not_true, Bool.false_eq_true, if_false, hleaf, if_true]
        · simp only [specStep]
          rw [List.filter_eq_nil_iff]
          intro s hs; simp [honly s hs]
        · intro i
          simp only [Cache.deleteNode]
          by_cases e : i = id
          · subst e; rw [put_same]
          · rw [put_ne _ _ e]
            by_contra hne; exact e (hFid i (hF i hne))
      | false =>
        obtain ⟨id', c', hrem, hnext, hok⟩ := remove_spec (H := H) d n c hw hn hleaf hr hmem
        obtain ⟨F', v', hr', hnid, hsub, hsup⟩ := hok.rep
        refine ⟨⟨some id', c'.deleteNode id, el⟩, ?_, ?_⟩
        · simp only [callOk, Trie.delete, if_neg hlenel, getNode_ok hw hn, liftE, Res.ok_bind, hfind,
            Bool.not_true, Bool.false_eq_true, if_false, hleaf, hrem]
        · refine ⟨deleteNode_wf hok.wf _, rfl, F', v', ?_, ?_⟩
          · refine (hr'.frame _ (fun i hi => ?_)).congrS (fun s => ?_)
            · simp only [Cache.deleteNode]
              rw [put_ne]; rintro rfl; exact hnid hi
            · simp [specStep]
          · intro i hi
            simp only [Cache.deleteNode] at hi
            by_cases e : i = id
            · subst e; rw [put_same] at hi; exact absurd rfl hi
            · rw [put_ne _ _ e] at hi
              by_cases hFi : F i ∨ c.next ≤ i
              · exact hsup i e hFi hi
              · have : c'.cache i = c.cache i := hok.frame i (fun h => hFi (Or.inl h)) (by
                  by_contra hge; exact hFi (Or.inr (by omega)))
                rw [this] at hi
                exact absurd (Or.inl (hF i hi)) hFi
    · rw [if_neg hmem]
      by_cases hfork : Forks ss d
      · rw [if_pos hfork]
        have := find_fork hw d n hn hr (fork_of_forks hfork)
        simp only [callOk, Trie.delete, if_neg hlenel, getNode_ok hw hn, liftE, Res.ok_bind, this, Res.panic_bind]
      · rw [if_neg hfork]
        obtain ⟨r, hfind, hfr⟩ := find_spec hw d n hn hr (noFork_of_not_forks hfork)
        have : r = false := by
          cases r with
          | false => rfl
          | true => exact absurd (hfr.1 rfl) hmem
        subst this
        refine ⟨⟨some id, c, el⟩, ?_, ?_⟩
        · simp only [callOk, Trie.delete, if_neg hlenel, getNode_ok hw hn, liftE, Res.ok_bind, hfind,
            Bool.not_false, if_true]
        · have : specStep ss (.delete d) = ss := by
            simp only [specStep]
            rw [List.filter_eq_self]
            intro s hs
            simp only [ne_eq, decide_not, Bool.not_eq_eq_eq_not, Bool.not_true, decide_eq_false_iff_not]
            rintro rfl; exact hmem hs
          rw [this]; exact ⟨hw, rfl, F, v, hr, hF⟩

theorem le_longest {s : Bytes} {ss : List Bytes} (h : s ∈ ss) : s.length ≤ longest ss := by
  induction ss with
  | nil => cases h
  | cons a ss ih =>
    simp only [longest, List.foldr_cons]
    rcases List.mem_cons.1 h with rfl | h
    · exact Nat.le_max_left _ _
    · exact Nat.le_trans (ih h) (Nat.le_max_right _ _)

theorem AnyInv.rootHash {t : Trie} {ss : List Bytes} {len : Nat} (h : AnyInv H t ss len) :
    ∃ t', callOk H t .rootHash = .ok (.hash (anyRoot H ss), t') ∧ AnyInv H t' ss len := by
  obtain ⟨root, c, el⟩ := t
  obtain ⟨hw, hrep⟩ := h
  cases root with
  | none =>
    obtain ⟨rfl, hnone⟩ := hrep
    exact ⟨⟨none, c, el⟩, rfl, hw, rfl, hnone⟩
  | some id =>
    obtain ⟨hel, F, v, hr, hF⟩ := hrep
    simp only at hel hr hF hw
    subst hel
    obtain ⟨n, hn⟩ := hr.some_of_mem id hr.mem_root
    have hne : ss ≠ [] := by rintro rfl; obtain ⟨s, hs⟩ := hr.nonempty; cases hs
    obtain ⟨n', c', hcalc, hok, e1, e2⟩ := calculateHash_spec (H := H) c.next n c hw hn hr
      (Room.of_lt (hr.lt_next hw))
    have hspec := hr.spec (longest ss + 1) ss (fun s => Iff.rfl) (fun s hs => Nat.lt_succ_of_le (le_longest hs))
    have hroot : anyRoot H ss = H ((if v.1 then 0 else 1) :: v.2) := by
      rw [anyRoot, if_neg hne, rootString, hspec]
    refine ⟨⟨some id, c'.setNode id n', el⟩, ?_, hok.wf, rfl, F, v, hok.rep, ?_⟩
    · simp only [callOk, Trie.rootHash, getNode_ok hw hn, liftE, Res.ok_bind, hcalc, hroot, e1, e2]
      cases v.1 <;> simp
    · intro i hi
      by_contra hFi
      rw [hok.frame i hFi] at hi
      exact hFi (hF i hi)

theorem AnyInv.run : ∀ (ops : List TrieOp) {t : Trie} {ss : List Bytes} {len : Nat}, AnyInv H t ss len →
    runAny H t ops = anyAnswers H ss len ops
  | [], _, _, _, _ => rfl
  | op :: ops, t, ss, len, h => by
    have step : match anyAnswer H ss len op with
        | .ok o => ∃ t', callOk H t op = .ok (o, t') ∧ AnyInv H t' (specStep ss op) (anyLen ss len op)
        | .err e => callOk H t op = .err e
        | .panic => callOk H t op = .panic := by
      cases op with
      | add d =>
        have := h.add d
        cases e : anyAnswer H ss len (.add d) with
        | ok o => rw [e] at this; exact this
        | err x => rw [e] at this; exact this.elim
        | panic => rw [e] at this; exact this
      | delete d => exact h.delete d
      | rootHash => exact h.rootHash
    rw [runAny, anyAnswers]
    cases e : anyAnswer H ss len op with
    | ok o =>
      rw [e] at step
      obtain ⟨t', h1, h2⟩ := step
      rw [h1]
      simp only
      rw [AnyInv.run ops h2]
    | err x =>
      rw [e] at step
      rw [step]
      simp only
      rw [AnyInv.run ops h]
    | panic =>
      rw [e] at step
      rw [step]

/-! ## C140 -/

/-- **C140**: the answers of every history of calls on a new trie, whatever byte strings they name, are exactly those of
a set kept beside it. -/
theorem C140_every_history (H : Bytes → Bytes) (ops : List TrieOp) :
    runAny H Trie.new ops = anyAnswers H [] 0 ops :=
  AnyInv.run ops (AnyInv.new 0)

/-- Each element is added to an empty set or to a set of elements of its length. -/
def Fits (ss : List Bytes) : List TrieOp → Prop
  | [] => True
  | .add d :: ops => d.length < 2 ^ 32 ∧ (∀ s ∈ ss, s.length = d.length) ∧ Fits (specStep ss (.add d)) ops
  | .delete d :: ops => Fits (if ∀ s ∈ ss, s.length = d.length then specStep ss (.delete d) else ss) ops
  | .rootHash :: ops => Fits ss ops

/-- What a set answers when elements of a length other than that of its members may not be deleted. -/
def reuseAnswers (H : Bytes → Bytes) (ss : List Bytes) : List TrieOp → List (Res TrieError TrieOut)
  | [] => []
  | .add d :: ops => .ok (.flag (decide (d ∉ ss))) :: reuseAnswers H (specStep ss (.add d)) ops
  | .delete d :: ops =>
    if ∀ s ∈ ss, s.length = d.length then
      .ok (.flag (decide (d ∈ ss))) :: reuseAnswers H (specStep ss (.delete d)) ops
    else .err .elementLengthMismatch :: reuseAnswers H ss ops
  | .rootHash :: ops => .ok (.hash (specRoot H ss)) :: reuseAnswers H ss ops

theorem longest_of_len {ss : List Bytes} {L : Nat} (hne : ss ≠ []) (h : ∀ s ∈ ss, s.length = L) : longest ss = L := by
  induction ss with
  | nil => exact absurd rfl hne
  | cons a ss ih =>
    have ha := h a List.mem_cons_self
    by_cases e : ss = []
    · subst e; simp [longest, ha]
    · have := ih e (fun s hs => h s (List.mem_cons_of_mem _ hs))
      simp only [longest, List.foldr_cons] at this ⊢
      rw [this, ha, Nat.max_self]

/-- On elements of one length this is the root hash of C02. -/
theorem anyRoot_of_len {ss : List Bytes} {L : Nat} (h : ∀ s ∈ ss, s.length = L) : anyRoot H ss = specRoot H ss := by
  cases ss with
  | nil => simp [anyRoot, specRoot]
  | cons a ss =>
    rw [anyRoot, if_neg (by simp), longest_of_len (by simp) h, specRoot, h a List.mem_cons_self]

theorem reuse_eq : ∀ (ops : List TrieOp) (ss : List Bytes) (len : Nat), Fits ss ops → (∀ s ∈ ss, s.length = len) →
    anyAnswers H ss len ops = reuseAnswers H ss ops
  | [], _, _, _, _ => rfl
  | .add d :: ops, ss, len, hf, hl => by
    obtain ⟨hd, hs, hf⟩ := hf
    rw [anyAnswers, reuseAnswers]
    have hans : anyAnswer H ss len (.add d) = .ok (.flag (decide (d ∉ ss))) := by
      simp only [anyAnswer]
      by_cases hm : d ∈ ss
      · rw [if_pos hm]; simp [hm]
      · rw [if_neg hm, if_neg]
        · simp [hm]
        · rintro ⟨s, hs', hc⟩
          have e : s = d := by
            rcases hc with p | p
            · exact p.eq_of_length (hs s hs')
            · exact (p.eq_of_length (hs s hs').symm).symm
          exact hm (e ▸ hs')
    rw [hans]
    simp only
    rw [reuse_eq ops _ _ hf]
    intro s hs'
    have hlen : anyLen ss len (.add d) = d.length := by
      simp only [anyLen]
      by_cases e : ss = []
      · rw [if_pos e, Nat.mod_eq_of_lt hd]
      · rw [if_neg e]
        obtain ⟨s, hs'⟩ := List.exists_mem_of_ne_nil _ e
        rw [← hl s hs', hs s hs']
    rw [hlen]
    simp only [specStep] at hs'
    split at hs'
    · exact hs s hs'
    · rcases List.mem_cons.1 hs' with rfl | hs'
      · rfl
      · exact hs s hs'
  | .delete d :: ops, ss, len, hf, hl => by
    rw [anyAnswers, reuseAnswers]
    simp only [Fits] at hf
    by_cases hs : ∀ s ∈ ss, s.length = d.length
    · rw [if_pos hs] at hf ⊢
      have hans : anyAnswer H ss len (.delete d) = .ok (.flag (decide (d ∈ ss))) := by
        simp only [anyAnswer]
        by_cases e : ss = []
        · subst e; simp
        · rw [if_neg e]
          obtain ⟨s, hs'⟩ := List.exists_mem_of_ne_nil _ e
          rw [if_neg (show ¬ d.length ≠ len by rw [← hl s hs', hs s hs']; simp)]
          by_cases hm : d ∈ ss
          · rw [if_pos hm]; simp [hm]
          · rw [if_neg hm, if_neg]
            · simp [hm]
            · rintro ⟨s, hs1, _, _, _, p, _⟩
              exact hm (p.eq_of_length (hs s hs1).symm ▸ hs1)
      rw [hans]
      simp only
      rw [reuse_eq ops _ _ hf]
      exact fun s hs' => hl s (List.mem_filter.1 hs').1
    · rw [if_neg hs] at hf ⊢
      have e : ss ≠ [] := by rintro rfl; exact hs (fun s h => by cases h)
      have hans : anyAnswer H ss len (.delete d) = .err .elementLengthMismatch := by
        simp only [anyAnswer]
        rw [if_neg e, if_pos]
        intro hd
        exact hs (fun s hs' => by rw [hl s hs', hd])
      rw [hans]
      simp only
      rw [reuse_eq ops _ _ hf hl]
  | .rootHash :: ops, ss, len, hf, hl => by
    rw [anyAnswers, reuseAnswers]
    simp only [anyAnswer, anyRoot_of_len hl]
    rw [show specStep ss .rootHash = ss from rfl, show anyLen ss len .rootHash = len from rfl, reuse_eq ops _ _ hf hl]

/-- **C140**: a trie can be used again. Whenever it is empty it takes elements of any length; as long as elements are
only added that are as long as the members, every call answers as a set would, deleting an element of another length is
refused with the length error and changes nothing, and nothing crashes. -/
theorem C140_reuse (H : Bytes → Bytes) (ops : List TrieOp) (h : Fits [] ops) :
    runAny H Trie.new ops = reuseAnswers H [] ops := by
  rw [C140_every_history, reuse_eq ops [] 0 h (fun s hs => by cases hs)]

/-- The members after a history that did not crash. -/
def anyMembers (H : Bytes → Bytes) (ss : List Bytes) (len : Nat) : List TrieOp → Option (List Bytes)
  | [] => some ss
  | op :: ops =>
    match anyAnswer H ss len op with
    | .ok _ => anyMembers H (specStep ss op) (anyLen ss len op) ops
    | .err _ => anyMembers H ss len ops
    | .panic => none

theorem anyAnswers_append : ∀ (ops more : List TrieOp) (ss : List Bytes) (len : Nat) (m : List Bytes),
    anyMembers H ss len ops = some m →
    ∃ len', anyAnswers H ss len (ops ++ more) = anyAnswers H ss len ops ++ anyAnswers H m len' more
  | [], _, _, len, _, h => by injection h with h; subst h; exact ⟨len, rfl⟩
  | op :: ops, more, ss, len, m, h => by
    simp only [anyMembers] at h
    simp only [List.cons_append, anyAnswers]
    cases e : anyAnswer H ss len op with
    | ok o =>
      rw [e] at h
      obtain ⟨l, hl⟩ := anyAnswers_append ops more _ _ m h
      exact ⟨l, by simp only; rw [hl]; rfl⟩
    | err x =>
      rw [e] at h
      obtain ⟨l, hl⟩ := anyAnswers_append ops more _ _ m h
      exact ⟨l, by simp only; rw [hl]; rfl⟩
    | panic => rw [e] at h; cases h

/-- **C140**: a trie that has become empty again answers like a new one from there on, whatever was done to it before. -/
theorem C140_emptied_is_new (H : Bytes → Bytes) (ops more : List TrieOp) (h : anyMembers H [] 0 ops = some []) :
    runAny H Trie.new (ops ++ more) = runAny H Trie.new ops ++ runAny H Trie.new more := by
  obtain ⟨l, hl⟩ := anyAnswers_append ops more [] 0 [] h
  rw [C140_every_history, hl, C140_every_history]
  exact congrArg _ (AnyInv.run more (AnyInv.new l)).symm

example : anyMembers toyHash [] 0 [.add [1, 2], .add [3], .delete [3], .delete [1, 2], .rootHash] = some [[3]] ∧
    anyMembers toyHash [] 0 [.add [1, 2], .add [3, 4], .delete [3, 4], .delete [1], .delete [1, 2]] = some [] := by
  exact ⟨rfl, rfl⟩

/-- Two lengths in one history, and a delete that is refused. -/
example : Fits [] [.add [1, 2], .add [1, 3], .delete [9], .delete [1, 2], .delete [1, 3], .add [7], .add [8], .rootHash] ∧
    (reuseAnswers toyHash [] [.add [1, 2], .add [1, 3], .delete [9], .delete [1, 2], .delete [1, 3], .add [7]]) =
      [.ok (.flag true), .ok (.flag true), .err .elementLengthMismatch, .ok (.flag true), .ok (.flag true),
        .ok (.flag true)] := by
  refine ⟨?_, by rfl⟩
  simp [Fits, specStep]

/-- Strings none of which starts another may be of any lengths: the trie takes them and answers for them. -/
example : anyAnswers toyHash [] 0 [.add [1, 2], .add [3], .add [3, 4]] =
    [.ok (.flag true), .ok (.flag true), .panic] := by rfl

/-! ## C141 -/

/-- Every string hashed to obtain the root hash of a set. -/
def anyStrings (H : Bytes → Bytes) (ss : List Bytes) : List Bytes :=
  if ss = [] then [] else rootString H ss (longest ss + 1) :: specStrings H (longest ss + 1) [] ss

theorem anyRoot_binding (H : Bytes → Bytes) (hH : ∀ x, (H x).length = 32) {ss1 ss2 : List Bytes}
    (h1 : PrefixFree ss1) (h2 : PrefixFree ss2) (hb : LenByte ss1 ss2) (heq : anyRoot H ss1 = anyRoot H ss2) :
    (∀ s, s ∈ ss1 ↔ s ∈ ss2) ∨
    (∃ x ∈ anyStrings H ss1, ∃ y ∈ anyStrings H ss2, x ≠ y ∧ H x = H y) ∨
    (∃ x ∈ anyStrings H ss1 ++ anyStrings H ss2, H x = List.replicate 32 0) := by
  by_cases e1 : ss1 = []
  · subst e1
    by_cases e2 : ss2 = []
    · subst e2; exact Or.inl (fun s => Iff.rfl)
    · right; right
      refine ⟨rootString H ss2 (longest ss2 + 1), by simp [anyStrings, e2], ?_⟩
      rw [anyRoot, anyRoot, if_pos rfl, if_neg e2] at heq
      exact heq.symm
  · by_cases e2 : ss2 = []
    · subst e2
      right; right
      refine ⟨rootString H ss1 (longest ss1 + 1), by simp [anyStrings, e1], ?_⟩
      rw [anyRoot, anyRoot, if_pos rfl, if_neg e1] at heq
      exact heq
    · rw [anyRoot, anyRoot, if_neg e1, if_neg e2] at heq
      rw [anyStrings, anyStrings, if_neg e1, if_neg e2]
      by_cases hs : rootString H ss1 (longest ss1 + 1) = rootString H ss2 (longest ss2 + 1)
      · simp only [rootString] at hs
        injection hs with ht hs
        have hv : specNode H (longest ss1 + 1) [] ss1 = specNode H (longest ss2 + 1) [] ss2 := by
          refine Prod.ext ?_ hs
          revert ht
          cases (specNode H (longest ss1 + 1) [] ss1).1 <;>
            cases (specNode H (longest ss2 + 1) [] ss2).1 <;> simp
        rcases specNode_binding H hH (longest ss1 + 1) (longest ss2 + 1) [] ss1 ss2 e1 e2
          (fun s hs => Nat.lt_succ_of_le (le_longest hs)) (fun s hs => Nat.lt_succ_of_le (le_longest hs))
          h1 h2 hb hv with h | ⟨x, hx, y, hy, q⟩
        · exact Or.inl h
        · exact Or.inr (Or.inl ⟨x, List.mem_cons_of_mem _ hx, y, List.mem_cons_of_mem _ hy, q⟩)
      · exact Or.inr (Or.inl ⟨_, List.mem_cons_self, _, List.mem_cons_self, hs, heq⟩)

theorem prefixFree_step {ss : List Bytes} {len : Nat} {op : TrieOp} {o : TrieOut} (h : PrefixFree ss)
    (e : anyAnswer H ss len op = .ok o) : PrefixFree (specStep ss op) := by
  cases op with
  | add d =>
    simp only [anyAnswer] at e
    by_cases hm : d ∈ ss
    · have : specStep ss (.add d) = ss := by simp [specStep, hm]
      rw [this]; exact h
    · rw [if_neg hm] at e
      by_cases hc : ∃ s ∈ ss, Comparable s d
      · rw [if_pos hc] at e; cases e
      · have : specStep ss (.add d) = d :: ss := by simp [specStep, hm]
        rw [this]
        intro a ha b hb p
        rcases List.mem_cons.1 ha with rfl | ha'
        · rcases List.mem_cons.1 hb with rfl | hb'
          · rfl
          · exact absurd ⟨b, hb', Or.inr p⟩ hc
        · rcases List.mem_cons.1 hb with rfl | hb'
          · exact absurd ⟨a, ha', Or.inl p⟩ hc
          · exact h a ha' b hb' p
  | delete d => exact fun a ha b hb p => h a (List.mem_filter.1 ha).1 b (List.mem_filter.1 hb).1 p
  | rootHash => exact h

theorem prefixFree_members : ∀ (ops : List TrieOp) (ss : List Bytes) (len : Nat) (m : List Bytes), PrefixFree ss →
    anyMembers H ss len ops = some m → PrefixFree m
  | [], _, _, _, h, e => by injection e with e; subst e; exact h
  | op :: ops, ss, len, m, h, e => by
    simp only [anyMembers] at e
    cases ea : anyAnswer H ss len op with
    | ok o => rw [ea] at e; exact prefixFree_members ops _ _ m (prefixFree_step h ea) e
    | err x => rw [ea] at e; exact prefixFree_members ops _ _ m h e
    | panic => rw [ea] at e; cases e

/-- The answer of a root-hash query after a history. -/
theorem answer_after (ops : List TrieOp) (m : List Bytes) (h : anyMembers H [] 0 ops = some m) :
    runAny H Trie.new (ops ++ [.rootHash]) = runAny H Trie.new ops ++ [.ok (.hash (anyRoot H m))] := by
  obtain ⟨l, hl⟩ := anyAnswers_append ops [.rootHash] [] 0 m h
  rw [C140_every_history, hl, C140_every_history]
  rfl

/-- **C141**, what holds: in all histories that did not crash, whatever lengths their elements had, equal root hashes mean
equal sets, or a collision among the strings hashed, or a preimage of the all-zero digest, provided that no length
occurring in one set differs from one occurring in the other by a multiple of 256. Missing: lengths that do, for which it
is false. -/
theorem C141_binds_partial (H : Bytes → Bytes) (hH : ∀ x, (H x).length = 32) (ops1 ops2 : List TrieOp)
    {m1 m2 : List Bytes} (h1 : anyMembers H [] 0 ops1 = some m1) (h2 : anyMembers H [] 0 ops2 = some m2)
    (hlen : ∀ s ∈ m1, ∀ t ∈ m2, s.length % 256 = t.length % 256 → s.length = t.length) {r : Bytes}
    (hr1 : runAny H Trie.new (ops1 ++ [.rootHash]) = runAny H Trie.new ops1 ++ [.ok (.hash r)])
    (hr2 : runAny H Trie.new (ops2 ++ [.rootHash]) = runAny H Trie.new ops2 ++ [.ok (.hash r)]) :
    (∀ s, s ∈ m1 ↔ s ∈ m2) ∨
    (∃ x ∈ anyStrings H m1, ∃ y ∈ anyStrings H m2, x ≠ y ∧ H x = H y) ∨
    (∃ x ∈ anyStrings H m1 ++ anyStrings H m2, H x = List.replicate 32 0) := by
  rw [answer_after ops1 m1 h1] at hr1
  rw [answer_after ops2 m2 h2] at hr2
  have e1 : anyRoot H m1 = r := by
    have := List.append_cancel_left hr1
    injection this with this; injection this with this; injection this
  have e2 : anyRoot H m2 = r := by
    have := List.append_cancel_left hr2
    injection this with this; injection this with this; injection this
  have hpf : PrefixFree [] := fun a ha => by cases ha
  exact anyRoot_binding H hH (prefixFree_members ops1 [] 0 m1 hpf h1) (prefixFree_members ops2 [] 0 m2 hpf h2) hlen
    (e1.trans e2.symm)

/-- The hypotheses on a trie with members of two lengths. -/
example : anyMembers toyHash [] 0 [.add [1, 2], .add [3]] = some [[3], [1, 2]] ∧
    (∀ s ∈ [[3], [1, 2]], ∀ t ∈ ([[7], [1, 2]] : List Bytes), s.length % 256 = t.length % 256 → s.length = t.length) := by
  exact ⟨rfl, by decide⟩

/-- What one child adds to the string hashed for the root. -/
def rootPart (H : Bytes → Bytes) (n : Nat) (ss : List Bytes) (b : UInt8) : Bytes :=
  if (tails b ss).isEmpty then [] else specEntry b (specNode H n [b] (tails b ss))

theorem allBytes_split : allBytes = 0 :: 1 :: 2 :: 3 :: 4 :: allBytes.drop 5 := by decide +kernel

theorem allBytes_rest : ∀ b ∈ allBytes.drop 5, b ≠ 1 ∧ b ≠ 2 ∧ b ≠ 3 ∧ b ≠ 4 := by decide +kernel

theorem flatMap_rest {f : UInt8 → Bytes} (h : ∀ b, b ≠ 1 → b ≠ 2 → b ≠ 3 → b ≠ 4 → f b = []) :
    allBytes.flatMap f = f 1 ++ (f 2 ++ (f 3 ++ f 4)) := by
  have : (allBytes.drop 5).flatMap f = [] := by
    rw [List.flatMap_eq_nil_iff]
    intro b hb
    obtain ⟨h1, h2, h3, h4⟩ := allBytes_rest b hb
    exact h b h1 h2 h3 h4
  rw [allBytes_split]
  simp only [List.flatMap_cons, this, List.append_nil]
  rw [h 0 (by decide) (by decide) (by decide) (by decide), List.nil_append]

theorem tails_short4 (u : Bytes) (b : UInt8) : tails b [1 :: u, 2 :: u, 3 :: u, 4 :: u] =
    if b = 1 ∨ b = 2 ∨ b = 3 ∨ b = 4 then [u] else [] := by
  by_cases h1 : b = 1
  · subst h1; simp [tails]
  · by_cases h2 : b = 2
    · subst h2; simp [tails]
    · by_cases h3 : b = 3
      · subst h3; simp [tails]
      · by_cases h4 : b = 4
        · subst h4; simp [tails]
        · simp [tails, h1, h2, h3, h4, Ne.symm h1, Ne.symm h2, Ne.symm h3, Ne.symm h4]

theorem tails_long2 (v w : Bytes) (b : UInt8) : tails b [1 :: v, 3 :: w] =
    if b = 1 then [v] else if b = 3 then [w] else [] := by
  by_cases h1 : b = 1
  · subst h1; simp [tails]
  · by_cases h3 : b = 3
    · subst h3; simp [tails]
    · simp [tails, h1, h3, Ne.symm h1, Ne.symm h3]

theorem specNode_one (n : Nat) (path s : Bytes) : specNode H (n + 1) path [s] = (true, s) := by
  rw [specNode]; simp

theorem specStrings_one (n : Nat) (path s : Bytes) : specStrings H (n + 1) path [s] = [] := by
  rw [specStrings]; simp

/-- The same string is hashed for both roots. -/
theorem same_root_part (u : Bytes) (hu : u.length = 253) (n n' : Nat) :
    allBytes.flatMap (rootPart H (n + 1) [1 :: u, 2 :: u, 3 :: u, 4 :: u]) =
    allBytes.flatMap (rootPart H (n' + 1) [1 :: (u ++ 0 :: 253 :: 2 :: u), 3 :: (u ++ 0 :: 253 :: 4 :: u)]) := by
  rw [flatMap_rest, flatMap_rest]
  · simp only [rootPart, tails_short4, tails_long2]
    simp [specNode_one, specEntry, hu]
  · intro b h1 h2 h3 h4
    simp [rootPart, tails_long2, h1, h3]
  · intro b h1 h2 h3 h4
    simp [rootPart, tails_short4, h1, h2, h3, h4]

theorem specNode_short (n : Nat) (u : Bytes) : specNode H (n + 1) [] [1 :: u, 2 :: u, 3 :: u, 4 :: u] =
    (false, H (0 :: allBytes.flatMap (rootPart H n [1 :: u, 2 :: u, 3 :: u, 4 :: u]))) := by
  rw [specNode, if_neg (by simp)]
  rfl

theorem specNode_long (n : Nat) (v w : Bytes) : specNode H (n + 1) [] [1 :: v, 3 :: w] =
    (false, H (0 :: allBytes.flatMap (rootPart H n [1 :: v, 3 :: w]))) := by
  rw [specNode, if_neg (by simp)]
  rfl

theorem specStrings_short (n : Nat) (u : Bytes) : specStrings H (n + 2) [] [1 :: u, 2 :: u, 3 :: u, 4 :: u] =
    [0 :: allBytes.flatMap (rootPart H (n + 1) [1 :: u, 2 :: u, 3 :: u, 4 :: u])] := by
  rw [specStrings, if_neg (by simp)]
  refine congrArg₂ List.cons rfl ?_
  rw [List.flatMap_eq_nil_iff]
  intro b _
  rw [tails_short4]
  by_cases h : b = 1 ∨ b = 2 ∨ b = 3 ∨ b = 4
  · rw [if_pos h]; simp [specStrings_one]
  · rw [if_neg h]; simp

theorem specStrings_long (n : Nat) (v w : Bytes) : specStrings H (n + 2) [] [1 :: v, 3 :: w] =
    [0 :: allBytes.flatMap (rootPart H (n + 1) [1 :: v, 3 :: w])] := by
  rw [specStrings, if_neg (by simp)]
  refine congrArg₂ List.cons rfl ?_
  rw [List.flatMap_eq_nil_iff]
  intro b _
  rw [tails_long2]
  by_cases h : b = 1
  · rw [if_pos h]; simp [specStrings_one]
  · rw [if_neg h]
    by_cases h3 : b = 3
    · rw [if_pos h3]; simp [specStrings_one]
    · rw [if_neg h3]; simp

theorem longest_pos {ss : List Bytes} {s : Bytes} (h : s ∈ ss) (hs : 1 ≤ s.length) : ∃ n, longest ss = n + 1 :=
  ⟨longest ss - 1, by have := le_longest h; omega⟩

theorem same_strings (u : Bytes) (hu : u.length = 253) :
    anyStrings H [1 :: u, 2 :: u, 3 :: u, 4 :: u] =
      anyStrings H [1 :: (u ++ 0 :: 253 :: 2 :: u), 3 :: (u ++ 0 :: 253 :: 4 :: u)] := by
  obtain ⟨n, hn⟩ := longest_pos (ss := [1 :: u, 2 :: u, 3 :: u, 4 :: u]) List.mem_cons_self (by simp)
  obtain ⟨n', hn'⟩ := longest_pos (ss := [1 :: (u ++ 0 :: 253 :: 2 :: u), 3 :: (u ++ 0 :: 253 :: 4 :: u)])
    List.mem_cons_self (by simp)
  rw [anyStrings, anyStrings, if_neg (by simp), if_neg (by simp), hn, hn', specStrings_short, specStrings_long,
    rootString, rootString, specNode_short, specNode_long, same_root_part u hu n n']

theorem same_root (u : Bytes) (hu : u.length = 253) :
    anyRoot H [1 :: u, 2 :: u, 3 :: u, 4 :: u] =
      anyRoot H [1 :: (u ++ 0 :: 253 :: 2 :: u), 3 :: (u ++ 0 :: 253 :: 4 :: u)] := by
  have h := same_strings (H := H) u hu
  rw [anyStrings, anyStrings, if_neg (by simp), if_neg (by simp)] at h
  rw [anyRoot, anyRoot, if_neg (by simp), if_neg (by simp)]
  injection h with h
  exact congrArg H h

theorem members_short (u : Bytes) :
    anyMembers H [] 0 [.add (4 :: u), .add (3 :: u), .add (2 :: u), .add (1 :: u)] =
      some [1 :: u, 2 :: u, 3 :: u, 4 :: u] := by
  simp [anyMembers, anyAnswer, specStep, Comparable]

theorem members_long (v w : Bytes) :
    anyMembers H [] 0 [.add (3 :: w), .add (1 :: v)] = some [1 :: v, 3 :: w] := by
  simp [anyMembers, anyAnswer, specStep, Comparable]

/-- **C141 is violated**: whatever the hash function, four elements of 254 bytes and two elements of 510 bytes have the
same root hash, because exactly the same strings are hashed for both. The length of a child's hash is cut down to one
byte before it is hashed (node.rs line 151), so an element can pretend to be two. -/
theorem C141_violated (H : Bytes → Bytes) : ∃ (ops1 ops2 : List TrieOp) (m1 m2 : List Bytes) (r : Bytes),
    OfLen 254 ops1 ∧ OfLen 510 ops2 ∧
    anyMembers H [] 0 ops1 = some m1 ∧ anyMembers H [] 0 ops2 = some m2 ∧
    m1.length = 4 ∧ m2.length = 2 ∧ (∀ s ∈ m1, s ∉ m2) ∧
    runAny H Trie.new (ops1 ++ [.rootHash]) = runAny H Trie.new ops1 ++ [.ok (.hash r)] ∧
    runAny H Trie.new (ops2 ++ [.rootHash]) = runAny H Trie.new ops2 ++ [.ok (.hash r)] ∧
    anyStrings H m1 = anyStrings H m2 := by
  obtain ⟨u, hu⟩ : ∃ u : Bytes, u.length = 253 := ⟨List.replicate 253 0, List.length_replicate⟩
  refine ⟨_, _, _, _, _, ?_, ?_, members_short u, members_long (u ++ 0 :: 253 :: 2 :: u) (u ++ 0 :: 253 :: 4 :: u), rfl, rfl,
    ?_, answer_after _ _ (members_short u), ?_, same_strings u hu⟩
  · intro op hop
    simp only [List.mem_cons, List.not_mem_nil, or_false] at hop
    rcases hop with rfl | rfl | rfl | rfl <;> simp [hu]
  · intro op hop
    simp only [List.mem_cons, List.not_mem_nil, or_false] at hop
    rcases hop with rfl | rfl <;> simp [hu]
  · intro s hs hs'
    have h1 : s.length = 254 := by
      simp only [List.mem_cons, List.not_mem_nil, or_false] at hs
      rcases hs with rfl | rfl | rfl | rfl <;> simp [hu]
    have h2 : s.length = 510 := by
      simp only [List.mem_cons, List.not_mem_nil, or_false] at hs'
      rcases hs' with rfl | rfl <;> simp [hu]
    omega
  · rw [same_root u hu]
    exact answer_after _ _ (members_long _ _)

/-! ## C05 -/

/-- **C05**, exactly what `add` does with an element of another length than the members: it crashes if a member is a
start of it or the other way round, and takes it otherwise. It never refuses it, so the length error is never
returned. -/
theorem C05_other_length_partial (H : Bytes → Bytes) (L : Nat) (hL : L < 2 ^ 32) (ops : List TrieOp) (h : OfLen L ops)
    {outs t} (hr : runTrie H Trie.new ops = .ok (outs, t)) (d : Bytes) (hd : d.length ≠ L) :
    ((∃ s ∈ specSet [] ops, Comparable s d) → t.add d = .panic) ∧
    ((¬ ∃ s ∈ specSet [] ops, Comparable s d) → ∃ t', t.add d = .ok (true, t')) := by
  obtain ⟨u, h1, inv⟩ := TrieInv.run (H := H) (L := L) hL ops Trie.new [] TrieInv.new h
  rw [h1] at hr
  injection hr with hr; injection hr with _ hr; subst hr
  have hmem : d ∉ specSet [] ops := fun hm => hd (inv.len d hm)
  have hany : AnyInv H u (specSet [] ops) L := by
    refine ⟨inv.wf, ?_⟩
    have := inv.repr
    exact this
  have := hany.add d
  simp only [anyAnswer, if_neg hmem] at this
  constructor
  · intro hc
    rw [if_pos hc] at this
    simp only [callOk] at this
    cases e : u.add d with
    | ok x => rw [e] at this; cases this
    | err x => rw [e] at this; cases this
    | panic => rfl
  · intro hc
    rw [if_neg hc] at this
    obtain ⟨t', ht, _⟩ := this
    simp only [callOk] at ht
    cases e : u.add d with
    | ok x =>
      rw [e, Res.ok_bind] at ht
      injection ht with ht; injection ht with ht _; injection ht with ht
      exact ⟨x.2, by rw [← ht]⟩
    | err x => rw [e] at ht; cases ht
    | panic => rw [e] at ht; cases ht

example : (∃ s ∈ specSet [] [.add [1, 2], .add [3, 4]], Comparable s [3]) ∧
    (¬ ∃ s ∈ specSet [] [.add [1, 2], .add [3, 4]], Comparable s [5, 6, 7]) := by decide

/-- A case of `C140_reuse`: a trie emptied and filled with strings of another length. -/
example (H : Bytes → Bytes) : runAny H Trie.new [.add [1, 2], .add [1, 3], .delete [9], .delete [1, 2], .delete [1, 3], .add [7]] =
    [.ok (.flag true), .ok (.flag true), .err .elementLengthMismatch, .ok (.flag true), .ok (.flag true), .ok (.flag true)] := by
  rw [C140_reuse H _ (by simp [Fits, specStep])]
  rfl

end Verif.Props
