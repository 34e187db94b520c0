import Verif.Lemmas.TrieSpec
/-!
# C01-C05, C68: the merkle trie
-/

namespace Verif.Props
open Verif Verif.Trie

/-- A call on a trie. -/
inductive TrieOp where
  | add (d : Bytes)
  | delete (d : Bytes)
  | rootHash
  deriving Repr, DecidableEq

/-- What a call answers. -/
inductive TrieOut where
  | flag (b : Bool)
  | hash (h : Bytes)
  deriving Repr, DecidableEq

def TrieOut.flag? : TrieOut → Option Bool
  | .flag b => some b
  | .hash _ => none

/-- Every element named in the history has length `L`. -/
def OfLen (L : Nat) (ops : List TrieOp) : Prop :=
  ∀ op ∈ ops, match op with
    | .add d => d.length = L
    | .delete d => d.length = L
    | .rootHash => True

/-- A call on a storage that works. -/
def callOk (H : Bytes → Bytes) (t : Trie) : TrieOp → Res TrieError (TrieOut × Trie)
  | .add d => t.add d >>= fun x => .ok (.flag x.1, x.2)
  | .delete d => t.delete d >>= fun x => .ok (.flag x.1, x.2)
  | .rootHash => t.rootHash H >>= fun x => .ok (.hash x.1, x.2)

/-- Run a history on the model, collecting the answers. -/
def runTrie (H : Bytes → Bytes) (t : Trie) : List TrieOp → Res TrieError (List TrieOut × Trie)
  | [] => .ok ([], t)
  | .add d :: ops => do
    let (b, t) ← t.add d
    let (outs, t) ← runTrie H t ops
    pure (.flag b :: outs, t)
  | .delete d :: ops => do
    let (b, t) ← t.delete d
    let (outs, t) ← runTrie H t ops
    pure (.flag b :: outs, t)
  | .rootHash :: ops => do
    let (h, t) ← t.rootHash H
    let (outs, t) ← runTrie H t ops
    pure (.hash h :: outs, t)

/-! ## Specification: a plain set, kept as a list -/

def specStep (ss : List Bytes) : TrieOp → List Bytes
  | .add d => if d ∈ ss then ss else d :: ss
  | .delete d => ss.filter (fun s => s ≠ d)
  | .rootHash => ss

/-- The members after a history. -/
def specSet (ss : List Bytes) : List TrieOp → List Bytes
  | [] => ss
  | op :: ops => specSet (specStep ss op) ops

/-- The answers of the `add` and `delete` calls. -/
def specFlags (ss : List Bytes) : List TrieOp → List Bool
  | [] => []
  | .add d :: ops => decide (d ∉ ss) :: specFlags (specStep ss (.add d)) ops
  | .delete d :: ops => decide (d ∈ ss) :: specFlags (specStep ss (.delete d)) ops
  | .rootHash :: ops => specFlags ss ops

/-- All answers. -/
def specOuts (H : Bytes → Bytes) (ss : List Bytes) : List TrieOp → List TrieOut
  | [] => []
  | .add d :: ops => .flag (decide (d ∉ ss)) :: specOuts H (specStep ss (.add d)) ops
  | .delete d :: ops => .flag (decide (d ∈ ss)) :: specOuts H (specStep ss (.delete d)) ops
  | .rootHash :: ops => .hash (specRoot H ss) :: specOuts H ss ops

/-- The trie represents exactly `ss`, and stores nothing else. -/
structure TrieInv (H : Bytes → Bytes) (L : Nat) (t : Trie) (ss : List Bytes) : Prop where
  wf : t.cache.WF
  len : ∀ s ∈ ss, s.length = L
  repr : match t.root with
    | none => ss = [] ∧ ∀ i, t.cache.cache i = none
    | some id => t.elementLength = L ∧ ∃ F v, Rep H t.cache.cache [] id (fun s => s ∈ ss) F v ∧
        ∀ i, t.cache.cache i ≠ none → F i

variable {H : Bytes → Bytes} {L : Nat}

theorem TrieInv.new : TrieInv H L Trie.new [] :=
  ⟨Cache.WF.new, by simp, rfl, fun _ => rfl⟩

theorem TrieInv.add {t : Trie} {ss : List Bytes} (h : TrieInv H L t ss) (hL : L < u32Lim) (d : Bytes)
    (hd : d.length = L) :
    ∃ t', t.add d = .ok (decide (d ∉ ss), t') ∧ TrieInv H L t' (specStep ss (.add d)) := by
  obtain ⟨root, c, el⟩ := t
  obtain ⟨hw, hlen, hrep⟩ := h
  have hlen' : ∀ s ∈ specStep ss (.add d), s.length = L := by
    intro s hs
    simp only [specStep] at hs
    split at hs
    · exact hlen s hs
    · rcases List.mem_cons.1 hs with rfl | hs
      · exact hd
      · exact hlen s hs
  cases root with
  | none =>
    obtain ⟨rfl, hnone⟩ := hrep
    refine ⟨⟨some c.next, c.allocSet ⟨false, d, none⟩, d.length % u32Lim⟩, rfl, ?_⟩
    refine ⟨allocSet_wf hw _, hlen', ?_⟩
    refine ⟨by simp only; rw [hd, Nat.mod_eq_of_lt hL], fun i => i = c.next, (true, d), ?_, ?_⟩
    · refine Rep.leaf _ _ _ _ false d ?_ ?_ (fun i => Iff.rfl)
      · simp only [allocSet_cache]; rw [put_same]
      · intro s; simp [specStep]
    · intro i hi
      simp only [allocSet_cache] at hi
      by_contra e
      rw [put_ne _ _ e] at hi; exact hi (hnone i)
  | some id =>
    obtain ⟨hel, F, v, hr, hF⟩ := hrep
    simp only at hel hr hF hw
    obtain ⟨n, hn⟩ := hr.some_of_mem id hr.mem_root
    obtain ⟨r, hfind, hfr⟩ := find_spec hw d n hn hr (NoFork.of_len (fun s hs => by rw [hlen s hs, hd]))
    by_cases hmem : d ∈ ss
    · have : r = true := hfr.2 hmem
      subst this
      refine ⟨⟨some id, c, el⟩, ?_, ?_⟩
      · simp only [Verif.Trie.Trie.add, getNode_ok hw hn, liftE, Res.ok_bind, hfind, if_true]
        simp [hmem]
      · have : specStep ss (.add d) = ss := by simp [specStep, hmem]
        rw [this]; exact ⟨hw, hlen, hel, F, v, hr, hF⟩
    · have : r = false := by
        cases r with
        | false => rfl
        | true => exact absurd (hfr.1 rfl) hmem
      subst this
      obtain ⟨id', c', hadd, hok⟩ := add_spec (H := H) d n c hw hn hr
        (Apart.of_len (fun s hs => by rw [hlen s hs, hd]) hmem)
      obtain ⟨F', v', hr', hnid, hsub, hsup⟩ := hok.rep
      refine ⟨⟨some id', c'.deleteNode id, el⟩, ?_, ?_⟩
      · simp only [Verif.Trie.Trie.add, getNode_ok hw hn, liftE, Res.ok_bind, hfind, Bool.false_eq_true, if_false,
          hadd]
        simp [hmem]
      · refine ⟨deleteNode_wf hok.wf _, hlen', hel, F', v', ?_, ?_⟩
        · refine (hr'.frame _ (fun i hi => ?_)).congrS (fun s => ?_)
          · simp only [Cache.deleteNode]
            rw [put_ne]; rintro rfl; exact hnid hi
          · simp only [specStep, hmem, if_false, List.mem_cons]; exact Or.comm
        · intro i hi
          simp only [Cache.deleteNode] at hi
          by_cases e : i = id
          · subst e; rw [put_same] at hi; exact absurd rfl hi
          · rw [put_ne _ _ e] at hi
            by_cases hFi : F i ∨ c.next ≤ i
            · exact hsup i e hFi hi
            · have : c'.cache i = c.cache i := hok.frame i (fun h => hFi (Or.inl h)) (by
                by_contra hge; exact hFi (Or.inr (by omega)))
              rw [this] at hi
              exact absurd (Or.inl (hF i hi)) hFi

theorem TrieInv.delete {t : Trie} {ss : List Bytes} (h : TrieInv H L t ss) (d : Bytes)
    (hd : d.length = L) :
    ∃ t', t.delete d = .ok (decide (d ∈ ss), t') ∧ TrieInv H L t' (specStep ss (.delete d)) := by
  obtain ⟨root, c, el⟩ := t
  obtain ⟨hw, hlen, hrep⟩ := h
  have hlen' : ∀ s ∈ specStep ss (.delete d), s.length = L :=
    fun s hs => hlen s (List.mem_filter.1 hs).1
  cases root with
  | none =>
    obtain ⟨rfl, hnone⟩ := hrep
    exact ⟨⟨none, c, el⟩, rfl, hw, hlen', rfl, hnone⟩
  | some id =>
    obtain ⟨hel, F, v, hr, hF⟩ := hrep
    simp only at hel hr hF hw
    obtain ⟨n, hn⟩ := hr.some_of_mem id hr.mem_root
    obtain ⟨r, hfind, hfr⟩ := find_spec hw d n hn hr (NoFork.of_len (fun s hs => by rw [hlen s hs, hd]))
    have hlenel : ¬ (d.length ≠ el) := by rw [hd, hel]; simp
    by_cases hmem : d ∈ ss
    · have : r = true := hfr.2 hmem
      subst this
      cases hleaf : n.isLeaf with
      | true =>
        have honly : ∀ s, s ∈ ss → s = d := by
          cases hr with
          | leaf _ _ _ _ _ suffix _ hS _ =>
            intro s hs; rw [(hS s).1 hs, (hS d).1 hmem]
          | node _ _ _ _ _ _ _ _ _ hg' =>
            rw [hn] at hg'; injection hg' with hg'; subst hg'; simp [Node.isLeaf] at hleaf
        have hFid : ∀ i, F i → i = id := by
          cases hr with
          | leaf _ _ _ _ _ suffix _ _ hF => exact fun i hi => (hF i).1 hi
          | node _ _ _ _ _ _ _ _ _ hg' =>
            rw [hn] at hg'; injection hg' with hg'; subst hg'; simp [Node.isLeaf] at hleaf
        refine ⟨⟨none, c.deleteNode id, 0⟩, ?_, deleteNode_wf hw _, hlen', ?_, ?_⟩
        · simp only [Trie.delete, if_neg hlenel, getNode_ok hw hn, liftE, Res.ok_bind, hfind,
            Bool.not_true, Bool.false_eq_true, if_false, hleaf, if_true, hmem, decide_true]
        · simp only [specStep]
          rw [List.filter_eq_nil_iff]
          intro s hs; simp [honly s hs]
        · intro i
          simp only [Cache.deleteNode]
          by_cases e : i = id
          · subst e; rw [put_same]
          · rw [put_ne _ _ e]
            by_contra hne; exact e (hFid i (hF i hne))
      | false =>
        obtain ⟨id', c', hrem, hnext, hok⟩ := remove_spec (H := H) d n c hw hn hleaf hr hmem
        obtain ⟨F', v', hr', hnid, hsub, hsup⟩ := hok.rep
        refine ⟨⟨some id', c'.deleteNode id, el⟩, ?_, ?_⟩
        · simp only [Trie.delete, if_neg hlenel, getNode_ok hw hn, liftE, Res.ok_bind, hfind,
            Bool.not_true, Bool.false_eq_true, if_false, hleaf, hrem, hmem, decide_true]
        · refine ⟨deleteNode_wf hok.wf _, hlen', hel, F', v', ?_, ?_⟩
          · refine (hr'.frame _ (fun i hi => ?_)).congrS (fun s => ?_)
            · simp only [Cache.deleteNode]
              rw [put_ne]; rintro rfl; exact hnid hi
            · simp [specStep]
          · intro i hi
            simp only [Cache.deleteNode] at hi
            by_cases e : i = id
            · subst e; rw [put_same] at hi; exact absurd rfl hi
            · rw [put_ne _ _ e] at hi
              by_cases hFi : F i ∨ c.next ≤ i
              · exact hsup i e hFi hi
              · have : c'.cache i = c.cache i := hok.frame i (fun h => hFi (Or.inl h)) (by
                  by_contra hge; exact hFi (Or.inr (by omega)))
                rw [this] at hi
                exact absurd (Or.inl (hF i hi)) hFi
    · have : r = false := by
        cases r with
        | false => rfl
        | true => exact absurd (hfr.1 rfl) hmem
      subst this
      refine ⟨⟨some id, c, el⟩, ?_, ?_⟩
      · simp only [Trie.delete, if_neg hlenel, getNode_ok hw hn, liftE, Res.ok_bind, hfind,
          Bool.not_false, if_true, hmem, decide_false]
      · have : specStep ss (.delete d) = ss := by
          simp only [specStep]
          rw [List.filter_eq_self]
          intro s hs
          simp only [ne_eq, decide_not, Bool.not_eq_eq_eq_not, Bool.not_true, decide_eq_false_iff_not]
          rintro rfl; exact hmem hs
        rw [this]; exact ⟨hw, hlen, hel, F, v, hr, hF⟩

theorem TrieInv.rootHash {t : Trie} {ss : List Bytes} (h : TrieInv H L t ss) :
    ∃ t', t.rootHash H = .ok (specRoot H ss, t') ∧ TrieInv H L t' ss := by
  obtain ⟨root, c, el⟩ := t
  obtain ⟨hw, hlen, hrep⟩ := h
  cases root with
  | none =>
    obtain ⟨rfl, hnone⟩ := hrep
    exact ⟨_, rfl, hw, hlen, rfl, hnone⟩
  | some id =>
    obtain ⟨hel, F, v, hr, hF⟩ := hrep
    simp only at hel hr hF hw
    subst hel
    obtain ⟨n, hn⟩ := hr.some_of_mem id hr.mem_root
    obtain ⟨n', c', hcalc, hok, e1, e2⟩ := calculateHash_spec (H := H) c.next n c hw hn hr
      (Room.of_lt (hr.lt_next hw))
    have hspec := hr.spec (el + 1) ss (fun s => Iff.rfl) (fun s hs => by have := hlen s hs; omega)
    have hroot : specRoot H ss = H ((if v.1 then 0 else 1) :: v.2) := by
      obtain ⟨s, hs⟩ := hr.nonempty
      cases ss with
      | nil => cases hs
      | cons a rest =>
        simp only [specRoot, rootString]
        rw [hlen a List.mem_cons_self, hspec]
    refine ⟨⟨some id, c'.setNode id n', el⟩, ?_, hok.wf, hlen, rfl, F, v, hok.rep, ?_⟩
    · simp only [Trie.rootHash, getNode_ok hw hn, liftE, Res.ok_bind, hcalc, hroot, e1, e2]
      cases v.1 <;> simp
    · intro i hi
      by_contra hFi
      rw [hok.frame i hFi] at hi
      exact hFi (hF i hi)

theorem TrieInv.run (hL : L < u32Lim) : ∀ (ops : List TrieOp) (t : Trie) (ss : List Bytes),
    TrieInv H L t ss → OfLen L ops →
    ∃ t', runTrie H t ops = .ok (specOuts H ss ops, t') ∧ TrieInv H L t' (specSet ss ops) := by
  intro ops
  induction ops with
  | nil => intro t ss h _; exact ⟨t, rfl, h⟩
  | cons op ops ih =>
    intro t ss h hl
    have hl' : OfLen L ops := fun op hop => hl op (List.mem_cons_of_mem _ hop)
    have hop := hl op List.mem_cons_self
    cases op with
    | add d =>
      obtain ⟨t1, h1, i1⟩ := h.add hL d hop
      obtain ⟨t2, h2, i2⟩ := ih t1 _ i1 hl'
      exact ⟨t2, by simp only [runTrie, h1, h2, Res.ok_bind, Res.pure_eq, specOuts], i2⟩
    | delete d =>
      obtain ⟨t1, h1, i1⟩ := h.delete d hop
      obtain ⟨t2, h2, i2⟩ := ih t1 _ i1 hl'
      exact ⟨t2, by simp only [runTrie, h1, h2, Res.ok_bind, Res.pure_eq, specOuts], i2⟩
    | rootHash =>
      obtain ⟨t1, h1, i1⟩ := h.rootHash
      obtain ⟨t2, h2, i2⟩ := ih t1 _ i1 hl'
      exact ⟨t2, by simp only [runTrie, h1, h2, Res.ok_bind, Res.pure_eq, specOuts], i2⟩

theorem specOuts_flags : ∀ (ops : List TrieOp) (ss : List Bytes),
    (specOuts H ss ops).filterMap TrieOut.flag? = specFlags ss ops
  | [], _ => rfl
  | .add _ :: ops, ss => by
    rw [specOuts, specFlags, ← specOuts_flags ops]; rfl
  | .delete _ :: ops, ss => by
    rw [specOuts, specFlags, ← specOuts_flags ops]; rfl
  | .rootHash :: ops, ss => by
    rw [specOuts, specFlags, ← specOuts_flags ops]; rfl

/-! ## C01 -/

/-- **C01**: any history over elements of one length runs without error or crash, and its `add` and
`delete` calls answer as a set would. -/
theorem C01_trie_is_set (H : Bytes → Bytes) (L : Nat) (hL : L < 2 ^ 32) (ops : List TrieOp)
    (h : OfLen L ops) :
    ∃ outs t, runTrie H Trie.new ops = .ok (outs, t) ∧
      outs.filterMap TrieOut.flag? = specFlags [] ops := by
  obtain ⟨t, h1, _⟩ := TrieInv.run (H := H) (L := L) hL ops Trie.new [] TrieInv.new h
  exact ⟨_, t, h1, specOuts_flags ops []⟩

/-- The specification set really is a set: membership after one more call. -/
theorem C01_spec_membership (ss : List Bytes) (d s : Bytes) :
    (s ∈ specStep ss (.add d) ↔ s = d ∨ s ∈ ss) ∧ (s ∈ specStep ss (.delete d) ↔ s ∈ ss ∧ s ≠ d) := by
  constructor
  · simp only [specStep]
    split
    · rename_i hm; exact ⟨Or.inr, fun h => h.elim (fun e => e ▸ hm) id⟩
    · exact List.mem_cons
  · simp [specStep]

example : OfLen 2 [.add [1, 2], .add [1, 3], .rootHash, .delete [1, 2], .add [1, 3]] := by
  intro op h; simp at h; rcases h with rfl | rfl | rfl | rfl | rfl <;> simp

/-- The answers in that history. -/
example : specFlags [] [.add [1, 2], .add [1, 3], .rootHash, .delete [1, 2], .add [1, 3]] =
    [true, true, true, false] := by decide

/-! ## C02 -/

/-- **C02**: each root-hash query answers a fixed function of the current set. -/
theorem C02_root_hash_is_function_of_set (H : Bytes → Bytes) (L : Nat) (hL : L < 2 ^ 32)
    (ops : List TrieOp) (h : OfLen L ops) :
    ∃ outs t t', runTrie H Trie.new ops = .ok (outs, t) ∧ outs = specOuts H [] ops ∧
      t.rootHash H = .ok (specRoot H (specSet [] ops), t') := by
  obtain ⟨t, h1, h2⟩ := TrieInv.run (H := H) (L := L) hL ops Trie.new [] TrieInv.new h
  obtain ⟨t', h3, _⟩ := h2.rootHash
  exact ⟨_, t, t', h1, rfl, h3⟩

/-- **C02**: two histories that end with the same members report the same root hash. -/
theorem C02_history_independent (H : Bytes → Bytes) (L : Nat) (hL : L < 2 ^ 32)
    (ops ops' : List TrieOp) (h : OfLen L ops) (h' : OfLen L ops')
    (hsame : ∀ s, s ∈ specSet [] ops ↔ s ∈ specSet [] ops')
    {outs outs' t t'} (hr : runTrie H Trie.new ops = .ok (outs, t))
    (hr' : runTrie H Trie.new ops' = .ok (outs', t')) :
    ∃ r t2 t2', t.rootHash H = .ok (r, t2) ∧ t'.rootHash H = .ok (r, t2') := by
  obtain ⟨u, h1, i1⟩ := TrieInv.run (H := H) (L := L) hL ops Trie.new [] TrieInv.new h
  obtain ⟨u', h1', i1'⟩ := TrieInv.run (H := H) (L := L) hL ops' Trie.new [] TrieInv.new h'
  rw [h1] at hr; rw [h1'] at hr'
  injection hr with hr; injection hr with _ hr; subst hr
  injection hr' with hr'; injection hr' with _ hr'; subst hr'
  obtain ⟨t2, e, _⟩ := i1.rootHash
  obtain ⟨t2', e', _⟩ := i1'.rootHash
  exact ⟨_, t2, t2', e, by rw [specRoot_congr H i1.len hsame]; exact e'⟩

/-- Dropping root-hash queries from a history changes neither answers nor members. -/
theorem spec_drop_queries : ∀ (ops : List TrieOp) (ss : List Bytes),
    specFlags ss (ops.filter (fun op => op ≠ .rootHash)) = specFlags ss ops ∧
    specSet ss (ops.filter (fun op => op ≠ .rootHash)) = specSet ss ops
  | [], _ => ⟨rfl, rfl⟩
  | .add d :: ops, ss => by
    have := spec_drop_queries ops (specStep ss (.add d))
    simp [specFlags, specSet] at this ⊢; exact this
  | .delete d :: ops, ss => by
    have := spec_drop_queries ops (specStep ss (.delete d))
    simp [specFlags, specSet] at this ⊢; exact this
  | .rootHash :: ops, ss => by
    have := spec_drop_queries ops ss
    simp [specFlags, specSet, specStep] at this ⊢; exact this

/-- **C02**: root-hash queries do not disturb anything: removing them all from a history leaves the
`add`/`delete` answers and the final root hash unchanged. -/
theorem C02_queries_do_not_disturb (H : Bytes → Bytes) (L : Nat) (hL : L < 2 ^ 32)
    (ops : List TrieOp) (h : OfLen L ops) :
    ∃ outs t outs' t' r t2 t2', runTrie H Trie.new ops = .ok (outs, t) ∧
      runTrie H Trie.new (ops.filter (fun op => op ≠ .rootHash)) = .ok (outs', t') ∧
      outs.filterMap TrieOut.flag? = outs'.filterMap TrieOut.flag? ∧
      t.rootHash H = .ok (r, t2) ∧ t'.rootHash H = .ok (r, t2') := by
  have h' : OfLen L (ops.filter (fun op => op ≠ .rootHash)) :=
    fun op hop => h op (List.mem_filter.1 hop).1
  obtain ⟨t, h1, i1⟩ := TrieInv.run (H := H) (L := L) hL ops Trie.new [] TrieInv.new h
  obtain ⟨t', h1', i1'⟩ := TrieInv.run (H := H) (L := L) hL _ Trie.new [] TrieInv.new h'
  obtain ⟨t2, e, _⟩ := i1.rootHash
  obtain ⟨t2', e', _⟩ := i1'.rootHash
  obtain ⟨q1, q2⟩ := spec_drop_queries ops []
  rw [q2] at e'
  exact ⟨_, t, _, t', _, t2, t2', h1, h1', by rw [specOuts_flags, specOuts_flags, q1], e, e'⟩

example : ∀ s, s ∈ specSet [] [.add [1, 2], .rootHash, .add [1, 3], .add [4, 4], .delete [1, 2]] ↔
    s ∈ specSet [] [.add [4, 4], .add [1, 3]] := by
  intro s; simp [specSet, specStep]; exact Or.comm

/-! ## C03 -/

/-- Either two sets agree, or the strings hashed for them contain a collision or a preimage of the
all-zero digest (which stands for the empty set). -/
theorem specRoot_binding (H : Bytes → Bytes) (hH : ∀ x, (H x).length = 32) {L1 L2 : Nat}
    (hL : L1 % 256 = L2 % 256 → L1 = L2) {ss1 ss2 : List Bytes}
    (h1 : ∀ s ∈ ss1, s.length = L1) (h2 : ∀ s ∈ ss2, s.length = L2)
    (heq : specRoot H ss1 = specRoot H ss2) :
    (∀ s, s ∈ ss1 ↔ s ∈ ss2) ∨
    (∃ x ∈ hashedStrings H ss1, ∃ y ∈ hashedStrings H ss2, x ≠ y ∧ H x = H y) ∨
    (∃ x ∈ hashedStrings H ss1 ++ hashedStrings H ss2, H x = List.replicate 32 0) := by
  cases ss1 with
  | nil =>
    cases ss2 with
    | nil => exact Or.inl (fun s => Iff.rfl)
    | cons b r2 =>
      right; right
      exact ⟨rootString H (b :: r2) (b.length + 1), by simp [hashedStrings], heq.symm⟩
  | cons a r1 =>
    cases ss2 with
    | nil =>
      right; right
      exact ⟨rootString H (a :: r1) (a.length + 1), by simp [hashedStrings], heq⟩
    | cons b r2 =>
      have e1 := h1 a List.mem_cons_self
      have e2 := h2 b List.mem_cons_self
      by_cases hs : rootString H (a :: r1) (a.length + 1) = rootString H (b :: r2) (b.length + 1)
      · simp only [rootString] at hs
        injection hs with ht hs
        have hv : specNode H (a.length + 1) [] (a :: r1) = specNode H (b.length + 1) [] (b :: r2) := by
          refine Prod.ext ?_ hs
          revert ht
          cases (specNode H (a.length + 1) [] (a :: r1)).1 <;>
            cases (specNode H (b.length + 1) [] (b :: r2)).1 <;> simp
        rcases specNode_binding H hH (a.length + 1) (b.length + 1) [] (a :: r1) (b :: r2)
          (by simp) (by simp) (fun s hs => by rw [h1 s hs, e1]; omega) (fun s hs => by rw [h2 s hs, e2]; omega)
          (PrefixFree.of_len h1) (PrefixFree.of_len h2) (fun s hs t ht e => by
            rw [h1 s hs, h2 t ht] at e ⊢; exact hL e) hv with h | ⟨x, hx, y, hy, q⟩
        · exact Or.inl h
        · exact Or.inr (Or.inl ⟨x, List.mem_cons_of_mem _ hx, y, List.mem_cons_of_mem _ hy, q⟩)
      · exact Or.inr (Or.inl ⟨_, List.mem_cons_self, _, List.mem_cons_self, hs, heq⟩)

/-- **C03**: two tries with the same root hash hold the same elements (of lengths that can be told apart by one byte,
for example at most 255, or the same), unless the strings hashed
while computing the two root hashes exhibit a collision, or one of them hashes to the all-zero
digest that stands for the empty trie. -/
theorem C03_root_hash_binds (H : Bytes → Bytes) (hH : ∀ x, (H x).length = 32) (L1 L2 : Nat)
    (hL1 : L1 < 2 ^ 32) (hL2 : L2 < 2 ^ 32) (hL : L1 % 256 = L2 % 256 → L1 = L2) (ops1 ops2 : List TrieOp) (h1 : OfLen L1 ops1)
    (h2 : OfLen L2 ops2) {outs1 outs2 t1 t2 r t1' t2'}
    (hr1 : runTrie H Trie.new ops1 = .ok (outs1, t1)) (hr2 : runTrie H Trie.new ops2 = .ok (outs2, t2))
    (hh1 : t1.rootHash H = .ok (r, t1')) (hh2 : t2.rootHash H = .ok (r, t2')) :
    (∀ s, s ∈ specSet [] ops1 ↔ s ∈ specSet [] ops2) ∨
    (∃ x ∈ hashedStrings H (specSet [] ops1), ∃ y ∈ hashedStrings H (specSet [] ops2),
      x ≠ y ∧ H x = H y) ∨
    (∃ x ∈ hashedStrings H (specSet [] ops1) ++ hashedStrings H (specSet [] ops2),
      H x = List.replicate 32 0) := by
  obtain ⟨u1, e1, i1⟩ := TrieInv.run (H := H) (L := L1) hL1 ops1 Trie.new []
    TrieInv.new h1
  obtain ⟨u2, e2, i2⟩ := TrieInv.run (H := H) (L := L2) hL2 ops2 Trie.new []
    TrieInv.new h2
  rw [e1] at hr1; rw [e2] at hr2
  injection hr1 with hr1; injection hr1 with _ hr1; subst hr1
  injection hr2 with hr2; injection hr2 with _ hr2; subst hr2
  obtain ⟨_, f1, _⟩ := i1.rootHash
  obtain ⟨_, f2, _⟩ := i2.rootHash
  rw [f1] at hh1; rw [f2] at hh2
  injection hh1 with hh1; injection hh1 with hh1 _
  injection hh2 with hh2; injection hh2 with hh2 _
  exact specRoot_binding H hH hL i1.len i2.len (hh1.trans hh2.symm)

/-- **C03** in the contrapositive form used by callers: when the hash has no collision among the
strings actually hashed and none of them gives the all-zero digest, equal root hashes mean equal
sets. -/
theorem C03_collision_free (H : Bytes → Bytes) (hH : ∀ x, (H x).length = 32) (L1 L2 : Nat)
    (hL1 : L1 < 2 ^ 32) (hL2 : L2 < 2 ^ 32) (hL : L1 % 256 = L2 % 256 → L1 = L2) (ops1 ops2 : List TrieOp) (h1 : OfLen L1 ops1)
    (h2 : OfLen L2 ops2) {outs1 outs2 t1 t2 r t1' t2'}
    (hr1 : runTrie H Trie.new ops1 = .ok (outs1, t1)) (hr2 : runTrie H Trie.new ops2 = .ok (outs2, t2))
    (hcf : ∀ x ∈ hashedStrings H (specSet [] ops1), ∀ y ∈ hashedStrings H (specSet [] ops2),
      H x = H y → x = y)
    (hz : ∀ x ∈ hashedStrings H (specSet [] ops1) ++ hashedStrings H (specSet [] ops2),
      H x ≠ List.replicate 32 0)
    (hh1 : t1.rootHash H = .ok (r, t1')) (hh2 : t2.rootHash H = .ok (r, t2')) :
    ∀ s, s ∈ specSet [] ops1 ↔ s ∈ specSet [] ops2 := by
  rcases C03_root_hash_binds H hH L1 L2 hL1 hL2 hL ops1 ops2 h1 h2 hr1 hr2 hh1 hh2 with h | ⟨x, hx, y, hy, hne, h⟩ | ⟨x, hx, h⟩
  · exact h
  · exact absurd (hcf x hx y hy h) hne
  · exact absurd h (hz x hx)

/-- A toy digest with 32 bytes that keeps the first bytes of its input. -/
def toyHash (x : Bytes) : Bytes := ((1 : UInt8) :: x ++ List.replicate 32 0).take 32

example : ∀ x, (toyHash x).length = 32 := by intro x; simp [toyHash]

/-- The collision-freeness hypotheses hold for the toy digest on a two-element and a one-element set. -/
example : (∀ x ∈ hashedStrings toyHash [[1], [2]], ∀ y ∈ hashedStrings toyHash [[3]],
      toyHash x = toyHash y → x = y) ∧
    (∀ x ∈ hashedStrings toyHash [[1], [2]] ++ hashedStrings toyHash [[3]],
      toyHash x ≠ List.replicate 32 0) := by decide +kernel

/-! ## C04 -/

/-- Specification of reachability in the store: follow the child identifiers of stored nodes. -/
inductive Reachable (store : Nat → Option Bytes) (root : Nat) : Nat → Prop where
  | root : Reachable store root root
  | child {i j : Nat} {bytes : Bytes} {n : Node} {ch : Children} {b : UInt8} (h : Reachable store root i)
      (hs : store i = some bytes) (hd : deserialize bytes = some n) (hc : n.children = some ch)
      (hj : ch b = some j) : Reachable store root j

theorem Rep.reachable {c : Cache} (hw : c.WF) {path id S F v} (h : Rep H c.cache path id S F v) :
    ∀ r, Reachable c.storage r id → ∀ i, F i → Reachable c.storage r i := by
  induction h with
  | leaf path id S F dty suffix hg hS hF => intro r hr i hi; rw [(hF i).1 hi]; exact hr
  | node path id S F dty h ch FB VB hg hnil hno hrec hF hid hdisj h2 hclean hdirty ih =>
    intro r hr i hi
    rcases (hF i).1 hi with rfl | ⟨b, cb, hb, hi⟩
    · exact hr
    · refine ih b cb hb r ?_ i hi
      have hs := hw.sync id
      rw [hg] at hs
      exact Reachable.child hr hs (deserialize_serialize _) rfl hb

theorem Rep.closed {c : Cache} {path id S F v} (h : Rep H c.cache path id S F v) :
    ∀ i, F i → ∀ n ch b j, c.cache i = some n → n.children = some ch → ch b = some j → F j := by
  induction h with
  | leaf path id S F dty suffix hg hS hF =>
    intro i hi n ch b j hn hc hj
    rw [(hF i).1 hi, hg] at hn; injection hn with hn; subst hn; cases hc
  | node path id S F dty h ch FB VB hg hnil hno hrec hF hid hdisj h2 hclean hdirty ih =>
    intro i hi n ch' b j hn hc hj
    rcases (hF i).1 hi with rfl | ⟨x, cx, hx, hi⟩
    · rw [hg] at hn; injection hn with hn; subst hn
      injection hc with hc; subst hc
      exact (hF j).2 (Or.inr ⟨b, j, hj, (hrec b j hj).mem_root⟩)
    · exact (hF j).2 (Or.inr ⟨x, cx, hx, ih x cx hx i hi n ch' b j hn hc hj⟩)

/-- **C04**: after any history the stored nodes are exactly those reachable from the root, and an
empty set leaves an empty store. -/
theorem C04_storage_is_reachable (H : Bytes → Bytes) (L : Nat) (hL : L < 2 ^ 32) (ops : List TrieOp)
    (h : OfLen L ops) {outs t} (hr : runTrie H Trie.new ops = .ok (outs, t)) :
    (∀ root, t.root = some root → ∀ i, t.cache.storage i ≠ none ↔ Reachable t.cache.storage root i) ∧
    (t.root = none → ∀ i, t.cache.storage i = none) ∧
    (t.root = none ↔ specSet [] ops = []) := by
  obtain ⟨u, h1, inv⟩ := TrieInv.run (H := H) (L := L) hL ops Trie.new [] TrieInv.new h
  rw [h1] at hr
  injection hr with hr; injection hr with _ hr; subst hr
  obtain ⟨hw, hlen, hrep⟩ := inv
  have hsync : ∀ i, u.cache.storage i ≠ none ↔ u.cache.cache i ≠ none := by
    intro i; rw [hw.sync i]; cases u.cache.cache i <;> simp
  cases hroot : u.root with
  | none =>
    rw [hroot] at hrep
    refine ⟨by simp, fun _ i => ?_, ?_⟩
    · by_contra hne; exact (hsync i).1 hne (hrep.2 i)
    · simp [hrep.1]
  | some id =>
    rw [hroot] at hrep
    obtain ⟨_, F, v, hr, hF⟩ := hrep
    refine ⟨?_, by simp, ?_⟩
    · intro root hid
      injection hid with hid; subst hid
      intro i
      constructor
      · intro hi
        exact Rep.reachable hw hr id .root i (hF i ((hsync i).1 hi))
      · intro hi
        have : F i := by
          induction hi with
          | root => exact hr.mem_root
          | child hre hs hd hc hj ih =>
            rename_i i j bytes n ch b
            obtain ⟨m, hm⟩ := hr.some_of_mem _ ih
            have hsy := hw.sync i
            rw [hm, hs] at hsy
            simp only [Option.map_some, Option.some.injEq] at hsy
            rw [hsy, deserialize_serialize] at hd
            injection hd with hd; subst hd
            exact Rep.closed hr i ih m ch b j hm hc hj
        obtain ⟨m, hm⟩ := hr.some_of_mem i this
        exact (hsync i).2 (by rw [hm]; simp)
    · constructor
      · intro h; cases h
      · intro he
        obtain ⟨s, hs⟩ := hr.nonempty
        rw [he] at hs; cases hs

/-! ## C05 -/

/-- **C05** is violated: adding a longer element that extends a stored one crashes. -/
theorem C05_refuted_panic : ∃ outs t, runTrie (fun _ => []) Trie.new [.add [1]] = .ok (outs, t) ∧
    t.add [1, 2] = .panic := by
  refine ⟨_, ⟨some 0, Cache.new.allocSet ⟨false, [1], none⟩, 1⟩, rfl, ?_⟩
  have hg := getNode_ok (allocSet_wf Cache.WF.new ⟨false, [1], none⟩) (i := 0) rfl
  simp only [Verif.Trie.Trie.add, hg, liftE, Res.ok_bind]
  rfl

/-- **C05** is violated: an element of another length can also be accepted. -/
theorem C05_refuted_accepted : ∃ outs t t', runTrie (fun _ => []) Trie.new [.add [1, 2]] = .ok (outs, t) ∧
    t.add [3] = .ok (true, t') := by
  have hg := getNode_ok (allocSet_wf Cache.WF.new ⟨false, [1, 2], none⟩) (i := 0) rfl
  have : ∃ t', Verif.Trie.Trie.add ⟨some 0, Cache.new.allocSet ⟨false, [1, 2], none⟩, 2⟩ [3] =
      .ok (true, t') := by
    simp only [Verif.Trie.Trie.add, hg, liftE, Res.ok_bind]
    exact ⟨_, rfl⟩
  obtain ⟨t', h⟩ := this
  exact ⟨_, ⟨some 0, Cache.new.allocSet ⟨false, [1, 2], none⟩, 2⟩, t', rfl, h⟩

/-- **C05**, the part that holds: on every reachable non-empty trie, `delete` rejects an element of
another length with the length error (and returns no new state). Missing: `add` does not check the
length at all. -/
theorem C05_delete_rejects_partial (H : Bytes → Bytes) (L : Nat) (hL : L < 2 ^ 32) (ops : List TrieOp)
    (h : OfLen L ops) {outs t} (hr : runTrie H Trie.new ops = .ok (outs, t))
    (hne : specSet [] ops ≠ []) (d : Bytes) (hd : d.length ≠ L) :
    t.delete d = .err .elementLengthMismatch := by
  obtain ⟨u, h1, inv⟩ := TrieInv.run (H := H) (L := L) hL ops Trie.new [] TrieInv.new h
  rw [h1] at hr
  injection hr with hr; injection hr with _ hr; subst hr
  obtain ⟨hw, hlen, hrep⟩ := inv
  cases hroot : u.root with
  | none => rw [hroot] at hrep; exact absurd hrep.1 hne
  | some id =>
    rw [hroot] at hrep
    obtain ⟨hel, _⟩ := hrep
    simp only [Trie.delete, hroot]
    rw [if_pos (by rw [hel]; exact hd)]

example : specSet [] [.add [1, 2], .add [3, 4], .delete [1, 2]] ≠ [] ∧ ([5] : Bytes).length ≠ 2 := by
  decide

/-! ## C68 -/

/-- **C68**: a node survives the trip through its stored form (the in-memory dirty mark is not
stored). -/
theorem C68_node_roundtrip (n : Node) :
    ∃ m, deserialize n.serialize = some m ∧ m.isLeaf = n.isLeaf ∧ m.hash = n.hash ∧
      m.children = n.children :=
  ⟨_, deserialize_serialize n, rfl, rfl, rfl⟩

/-- **C68**: different nodes have different stored forms. -/
theorem C68_serialize_injective (n m : Node) (h : n.serialize = m.serialize) :
    n.hash = m.hash ∧ n.children = m.children := by
  have h1 := deserialize_serialize n
  rw [h, deserialize_serialize m] at h1
  injection h1 with h1
  injection h1 with _ h1 h2
  exact ⟨h1.symm, h2.symm⟩

/-- A loaded node with two children keeps their identifiers. -/
example : ∃ m, deserialize (Node.serialize ⟨true, [7, 8], some (upd (upd noChildren 3 (some 300)) 200 (some 5))⟩) =
    some m ∧ m.hash = [7, 8] := by
  obtain ⟨m, h, _, h2, _⟩ := C68_node_roundtrip ⟨true, [7, 8], some (upd (upd noChildren 3 (some 300)) 200 (some 5))⟩
  exact ⟨m, h, h2⟩

/-- Some calls with strings of two bytes. -/
def toyOps : List TrieOp := [.add [1, 2], .rootHash, .add [1, 3], .add [4, 4], .delete [1, 2]]

theorem toyOps_len : OfLen 2 toyOps := by simp [OfLen, toyOps]

/-- A case of `C01_trie_is_set` and `C02_root_hash_is_function_of_set`. -/
example (H : Bytes → Bytes) : (∃ outs t, runTrie H Trie.new toyOps = .ok (outs, t) ∧
      outs.filterMap TrieOut.flag? = [true, true, true, true]) ∧
    ∃ t t', runTrie H Trie.new toyOps = .ok (specOuts H [] toyOps, t) ∧ t.rootHash H = .ok (specRoot H [[4, 4], [1, 3]], t') := by
  refine ⟨C01_trie_is_set H 2 (by decide) toyOps toyOps_len, ?_⟩
  obtain ⟨outs, t, t', h1, rfl, h3⟩ := C02_root_hash_is_function_of_set H 2 (by decide) toyOps toyOps_len
  exact ⟨t, t', h1, h3⟩

/-- A case of `C02_history_independent`: another way to the same set. -/
example (H : Bytes → Bytes) {outs outs' t t'} (hr : runTrie H Trie.new toyOps = .ok (outs, t))
    (hr' : runTrie H Trie.new [.add [4, 4], .add [1, 3]] = .ok (outs', t')) :
    ∃ r t2 t2', t.rootHash H = .ok (r, t2) ∧ t'.rootHash H = .ok (r, t2') :=
  C02_history_independent H 2 (by decide) _ _ toyOps_len (by simp [OfLen])
    (by intro s; simp [specSet, specStep, toyOps]; exact Or.comm) hr hr'

/-- A case of `C03_root_hash_binds`: with a hash that keeps the strings, other sets have other roots. -/
example {outs1 outs2 t1 t2 r1 r2 t1' t2'} (hr1 : runTrie toyHash Trie.new [.add [1], .add [2]] = .ok (outs1, t1))
    (hr2 : runTrie toyHash Trie.new [.add [3]] = .ok (outs2, t2))
    (hh1 : t1.rootHash toyHash = .ok (r1, t1')) (hh2 : t2.rootHash toyHash = .ok (r2, t2')) : r1 ≠ r2 := by
  rintro rfl
  have hno : (∀ x ∈ hashedStrings toyHash [[2], [1]], ∀ y ∈ hashedStrings toyHash [[3]], toyHash x = toyHash y → x = y) ∧
    (∀ x ∈ hashedStrings toyHash [[2], [1]] ++ hashedStrings toyHash [[3]], toyHash x ≠ List.replicate 32 0) := by
    decide +kernel
  rcases C03_root_hash_binds toyHash (fun x => by simp [toyHash]) 1 1 (by decide) (by decide) (fun _ => rfl) _ _
    (by simp [OfLen]) (by simp [OfLen]) hr1 hr2 hh1 hh2 with h | ⟨x, hx, y, hy, hne, he⟩ | ⟨x, hx, he⟩
  · have := (h [3]).2 (by decide)
    exact absurd this (by decide)
  · exact hne (hno.1 x hx y hy he)
  · exact hno.2 x hx he

/-- A case of `C04_storage_is_reachable`: two strings are left. -/
example (H : Bytes → Bytes) {outs t} (hr : runTrie H Trie.new toyOps = .ok (outs, t)) : t.root ≠ none := fun h => by
  have := (C04_storage_is_reachable H 2 (by decide) toyOps toyOps_len hr).2.2.1 h
  exact absurd this (by decide)

end Verif.Props
