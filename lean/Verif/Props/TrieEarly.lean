import Verif.Props.TrieFault
/-!
# C128: calls that fail before they write change nothing
-/

namespace Verif.Props
open Verif Verif.Trie

variable {H : Bytes → Bytes} {L : Nat}

/-! ## Specification -/

open Classical in
/-- The number of nodes below the root that the search for an element reads: one for each of its starts that is one byte
longer than a start shared by two members and that a member has. -/
noncomputable def pathLoads (S : Bytes → Prop) : Bytes → Nat
  | [] => 0
  | b :: rest =>
    if (∃ s t, S s ∧ S t ∧ s ≠ t) ∧ ∃ s, S (b :: s) then 1 + pathLoads (fun s => S (b :: s)) rest else 0

/-- One of the loads fails with which the call searches for its element, and then for the place of the change: the root,
and twice the nodes below it. -/
def FailsEarly (ss : List Bytes) (fl : Nat → Bool) : TrieOp → Prop
  | .add d => ss ≠ [] ∧ ∃ j, j ≤ 2 * pathLoads (fun s => s ∈ ss) d ∧ fl j = true
  | .delete d => ss ≠ [] ∧ ∃ j, j ≤ 2 * pathLoads (fun s => s ∈ ss) d ∧ fl j = true
  | .rootHash => False

/-- Each call runs on a storage that works, or would not change the set, or fails early. -/
def HarmlessFailures : List Bytes → List (TrieOp × (Nat → Bool)) → Prop
  | _, [] => True
  | ss, (op, fl) :: calls =>
    ((∀ k, fl k = false) ∧ HarmlessFailures (specStep ss op) calls) ∨
    ((specStep ss op = ss ∨ FailsEarly ss fl op) ∧ HarmlessFailures ss calls)

/-! ## Proof -/

theorem pathLoads_leaf {S : Bytes → Prop} {x : Bytes} (hS : ∀ s, S s ↔ s = x) (d : Bytes) : pathLoads S d = 0 := by
  cases d with
  | nil => rfl
  | cons b rest =>
    rw [pathLoads, if_neg]
    rintro ⟨⟨s, t, hs, ht, hne⟩, _⟩
    exact hne (((hS s).1 hs).trans ((hS t).1 ht).symm)

/-- A load in the middle of a function. -/
theorem load_step {α : Type} {c : Cache} (hc : Live c) {i n} (hi : c.cache i = some n) (fl : Nat → Bool) (k : Nat)
    (m : Node → FM α) :
    (fl k = true ∧ FM.bind (getNodeF i) m fl (c, k) = (.err .storageAccessFailed, (c, k + 1))) ∨
    (fl k = false ∧ FM.bind (getNodeF i) m fl (c, k) = m n fl (c, k + 1)) := by
  unfold FM.bind getNodeF
  cases hf : fl k with
  | true => left; simp
  | false => right; simp [hc.getNode hi]

theorem findF_loads {c : Cache} (hc : Live c) (fl : Nat → Bool) (d : Bytes) : ∀ (self : Node) (k : Nat) {path id S F v},
    c.cache id = some self → Rep H c.cache path id S F v →
    ((∀ j, k ≤ j → j < k + pathLoads S d → fl j = false) → (findF d self fl (c, k)).2 = (c, k + pathLoads S d)) ∧
    ((∃ j, k ≤ j ∧ j < k + pathLoads S d ∧ fl j = true) →
      (findF d self fl (c, k)).1 = .err .storageAccessFailed ∧ (findF d self fl (c, k)).2.1 = c) := by
  induction d with
  | nil =>
    intro self k path id S F v hself hrep
    refine ⟨fun _ => ?_, fun ⟨j, h1, h2, _⟩ => absurd h2 (by simp only [pathLoads]; omega)⟩
    unfold findF
    cases self.children <;> rfl
  | cons b rest ih =>
    intro self k path id S F v hself hrep
    cases hrep with
    | leaf _ _ _ _ _ suffix hg hS =>
      rw [hself] at hg; injection hg with hg; subst hg
      rw [pathLoads_leaf hS]
      exact ⟨fun _ => by unfold findF; rfl, fun ⟨j, h1, h2, _⟩ => absurd h2 (by omega)⟩
    | node _ _ _ _ dty h ch FB VB hg hnil hno hrec _ _ _ h2 =>
      rw [hself] at hg; injection hg with hg; subst hg
      unfold findF
      simp only
      cases hb : ch b with
      | none =>
        have hz : pathLoads S (b :: rest) = 0 := by
          rw [pathLoads, if_neg]
          rintro ⟨_, s, hs⟩
          exact hno b hb s hs
        rw [hz]
        exact ⟨fun _ => rfl, fun ⟨j, h1, h2, _⟩ => absurd h2 (by omega)⟩
      | some cid =>
        have hr := hrec b cid hb
        obtain ⟨n, hn⟩ := hr.some_of_mem cid hr.mem_root
        have hz : pathLoads S (b :: rest) = 1 + pathLoads (fun s => S (b :: s)) rest := by
          rw [pathLoads, if_pos ⟨h2, hr.nonempty⟩]
        rw [hz]
        show (_ → (FM.bind (getNodeF cid) (fun child => findF rest child) fl (c, k)).2 = _) ∧
          (_ → (FM.bind (getNodeF cid) (fun child => findF rest child) fl (c, k)).1 = _ ∧
            (FM.bind (getNodeF cid) (fun child => findF rest child) fl (c, k)).2.1 = c)
        obtain ⟨i1, i2⟩ := ih n (k + 1) hn hr
        rcases load_step hc hn fl k (fun child => findF rest child) with ⟨hf, e⟩ | ⟨hf, e⟩
        · rw [e]
          refine ⟨fun hall => ?_, fun _ => ⟨rfl, rfl⟩⟩
          rw [hall k (Nat.le_refl _) (by omega)] at hf; cases hf
        · rw [e]
          refine ⟨fun hall => ?_, fun ⟨j, h1, h2, h3⟩ => i2 ⟨j, ?_, by omega, h3⟩⟩
          · rw [i1 fun j h1 h2 => hall j (by omega) (by omega)]
            congr 1; omega
          · rcases Nat.lt_or_ge k j with h | h
            · exact h
            · have : j = k := by omega
              rw [this, hf] at h3; cases h3

/-- A search none of whose loads fails does not report a failure. -/
theorem findF_quiet {c : Cache} (hc : Live c) (fl : Nat → Bool) (d : Bytes) : ∀ (self : Node) (k : Nat) {path id S F v},
    c.cache id = some self → Rep H c.cache path id S F v → (∀ j, k ≤ j → j < k + pathLoads S d → fl j = false) →
    ∀ x, (findF d self fl (c, k)).1 ≠ .err x := by
  induction d with
  | nil =>
    intro self k path id S F v hself hrep _ x hx
    unfold findF at hx
    cases hch : self.children with
    | none => rw [hch] at hx; cases hx
    | some ch => rw [hch] at hx; cases hx
  | cons b rest ih =>
    intro self k path id S F v hself hrep hall x hx
    cases hrep with
    | leaf _ _ _ _ _ suffix hg hS =>
      rw [hself] at hg; injection hg with hg; subst hg
      unfold findF at hx; cases hx
    | node _ _ _ _ dty h ch FB VB hg hnil hno hrec _ _ _ h2 =>
      rw [hself] at hg; injection hg with hg; subst hg
      unfold findF at hx
      simp only at hx
      cases hb : ch b with
      | none => rw [hb] at hx; cases hx
      | some cid =>
        rw [hb] at hx
        have hr := hrec b cid hb
        obtain ⟨n, hn⟩ := hr.some_of_mem cid hr.mem_root
        have hz : pathLoads S (b :: rest) = 1 + pathLoads (fun s => S (b :: s)) rest := by
          rw [pathLoads, if_pos ⟨h2, hr.nonempty⟩]
        rw [hz] at hall
        rcases load_step hc hn fl k (fun child => findF rest child) with ⟨hf, _⟩ | ⟨_, e⟩
        · rw [hall k (Nat.le_refl _) (by omega)] at hf; cases hf
        · refine ih n (k + 1) hn hr (fun j h1 h2 => hall j (by omega) (by omega)) x ?_
          rw [← e]; exact hx

theorem addF_loads {c : Cache} (hc : Live c) (fl : Nat → Bool) (d : Bytes) : ∀ (self : Node) (p : Bytes) (k : Nat)
    {path id S F v}, c.cache id = some self → Rep H c.cache path id S F v →
    (∃ j, k ≤ j ∧ j < k + pathLoads S d ∧ fl j = true) →
      (addF d self p fl (c, k)).1 = .err .storageAccessFailed ∧ (addF d self p fl (c, k)).2.1 = c := by
  induction d with
  | nil => intro self p k path id S F v _ _ ⟨j, h1, h2, _⟩; exact absurd h2 (by simp only [pathLoads]; omega)
  | cons b rest ih =>
    intro self p k path id S F v hself hrep ⟨j, h1, h2, h3⟩
    cases hrep with
    | leaf _ _ _ _ _ suffix hg hS => rw [pathLoads_leaf hS] at h2; omega
    | node _ _ _ _ dty h ch FB VB hg hnil hno hrec _ _ _ hf2 =>
      rw [hself] at hg; injection hg with hg; subst hg
      unfold Verif.Trie.addF
      simp only
      cases hb : ch b with
      | none =>
        rw [pathLoads, if_neg] at h2
        · omega
        · rintro ⟨_, s, hs⟩
          exact hno b hb s hs
      | some cid =>
        have hr := hrec b cid hb
        obtain ⟨n, hn⟩ := hr.some_of_mem cid hr.mem_root
        rw [pathLoads, if_pos ⟨hf2, hr.nonempty⟩] at h2
        simp only
        have step := load_step hc hn fl k (fun child => FM.bind (addF rest child (p ++ [b])) fun updated =>
          FM.bind (setNodeF cid ⟨true, p, some (upd ch b (some updated))⟩) fun _ => (pure cid : FM Nat))
        show (FM.bind (getNodeF cid) (fun child => FM.bind (addF rest child (p ++ [b])) fun updated =>
          FM.bind (setNodeF cid ⟨true, p, some (upd ch b (some updated))⟩) fun _ => (pure cid : FM Nat)) fl (c, k)).1 = _ ∧
          (FM.bind (getNodeF cid) (fun child => FM.bind (addF rest child (p ++ [b])) fun updated =>
          FM.bind (setNodeF cid ⟨true, p, some (upd ch b (some updated))⟩) fun _ => (pure cid : FM Nat)) fl (c, k)).2.1 = c
        rcases step with ⟨hf, e⟩ | ⟨hf, e⟩
        · rw [e]; exact ⟨rfl, rfl⟩
        · rw [e]
          have hj : k + 1 ≤ j := by
            rcases Nat.lt_or_ge k j with h | h
            · exact h
            · have : j = k := by omega
              rw [this, hf] at h3; cases h3
          obtain ⟨q1, q2⟩ := ih n (p ++ [b]) (k + 1) hn hr ⟨j, hj, by omega, h3⟩
          conv => congr <;> (lhs; unfold FM.bind)
          cases e2 : addF rest n (p ++ [b]) fl (c, k + 1) with
          | mk r s =>
            rw [e2] at q1 q2
            simp only at q1 q2
            subst q1
            exact ⟨rfl, q2⟩

theorem removeF_loads {c : Cache} (hc : Live c) (fl : Nat → Bool) (d : Bytes) : ∀ (self : Node) (p : Bytes) (k : Nat)
    {path id S F v}, c.cache id = some self → Rep H c.cache path id S F v →
    (∃ j, k ≤ j ∧ j < k + pathLoads S d ∧ fl j = true) →
      (removeF d self p fl (c, k)).1 = .err .storageAccessFailed ∧ (removeF d self p fl (c, k)).2.1 = c := by
  induction d with
  | nil => intro self p k path id S F v _ _ ⟨j, h1, h2, _⟩; exact absurd h2 (by simp only [pathLoads]; omega)
  | cons b rest ih =>
    intro self p k path id S F v hself hrep ⟨j, h1, h2, h3⟩
    cases hrep with
    | leaf _ _ _ _ _ suffix hg hS => rw [pathLoads_leaf hS] at h2; omega
    | node _ _ _ _ dty h ch FB VB hg hnil hno hrec _ _ _ hf2 =>
      rw [hself] at hg; injection hg with hg; subst hg
      unfold removeF
      simp only
      cases hb : ch b with
      | none =>
        rw [pathLoads, if_neg] at h2
        · omega
        · rintro ⟨_, s, hs⟩
          exact hno b hb s hs
      | some cid =>
        have hr := hrec b cid hb
        obtain ⟨n, hn⟩ := hr.some_of_mem cid hr.mem_root
        rw [pathLoads, if_pos ⟨hf2, hr.nonempty⟩] at h2
        simp only
        generalize hm : (fun node : Node => if node.isLeaf = true then removeFinishF (upd ch b none) cid p
          else (do let updated ← removeF rest node (p ++ [b]); removeFinishF (upd ch b (some updated)) cid p : FM Nat)) = m
        show (FM.bind (getNodeF cid) m fl (c, k)).1 = _ ∧ (FM.bind (getNodeF cid) m fl (c, k)).2.1 = c
        rcases load_step hc hn fl k m with ⟨hf, e⟩ | ⟨hf, e⟩
        · rw [e]; exact ⟨rfl, rfl⟩
        · rw [e]
          have hj : k + 1 ≤ j := by
            rcases Nat.lt_or_ge k j with h | h
            · exact h
            · have : j = k := by omega
              rw [this, hf] at h3; cases h3
          obtain ⟨q1, q2⟩ := ih n (p ++ [b]) (k + 1) hn hr ⟨j, hj, by omega, h3⟩
          have hleaf : n.isLeaf = false := by
            cases hl : n.isLeaf with
            | false => rfl
            | true =>
              exfalso
              generalize VB b = vb at hr
              cases hr with
              | leaf _ _ _ _ _ suffix hg' hS' => rw [pathLoads_leaf hS'] at h2; omega
              | node _ _ _ _ _ _ _ _ _ hg' =>
                rw [hn] at hg'; injection hg' with hg'; subst hg'; cases hl
          subst hm
          simp only [hleaf, Bool.false_eq_true, if_false]
          show (FM.bind (removeF rest n (p ++ [b])) _ fl (c, k + 1)).1 = _ ∧
            (FM.bind (removeF rest n (p ++ [b])) _ fl (c, k + 1)).2.1 = c
          unfold FM.bind
          cases e2 : removeF rest n (p ++ [b]) fl (c, k + 1) with
          | mk r s =>
            rw [e2] at q1 q2
            simp only at q1 q2
            subst q1
            exact ⟨rfl, q2⟩

/-- A call that fails early reports the failure and leaves the trie as it was. -/
theorem FInv.early {t : Trie} {ss} (h : FInv H L t ss) (op : TrieOp) (hop : OfLen L [op]) (fl : Nat → Bool)
    (hf : FailsEarly ss fl op) (hch : specStep ss op ≠ ss) : callF H fl t op = (.err storageError, t) := by
  have hop := hop op List.mem_cons_self
  obtain ⟨root, c, el⟩ := t
  have hlive : Live c := h.live
  have hw : (twinC c).WF := h.inv.wf
  have hlen := h.inv.len
  have hrep := h.inv.repr
  simp only [twin] at hrep
  cases root with
  | none =>
    obtain ⟨rfl, _⟩ := hrep
    cases op with
    | add d => exact absurd rfl hf.1
    | delete d => exact absurd rfl hf.1
    | rootHash => exact hf.elim
  | some id =>
    obtain ⟨hel, F, v, hr, hF⟩ := hrep
    have hr : Rep H c.cache [] id (fun s => s ∈ ss) F v := hr
    obtain ⟨n, hn⟩ := hr.some_of_mem id hr.mem_root
    -- the search: it fails, or it answers right and has made its loads
    have search : ∀ d : Bytes, d.length = L → fl 0 = false → (∃ j, j ≤ 2 * pathLoads (fun s => s ∈ ss) d ∧ fl j = true) →
        ((findF d n fl (c, 1)).1 = .err .storageAccessFailed ∧ (findF d n fl (c, 1)).2.1 = c) ∨
        (∃ b, findF d n fl (c, 1) = (.ok b, (c, 1 + pathLoads (fun s => s ∈ ss) d)) ∧ (b = true ↔ d ∈ ss) ∧
          ∃ j, 1 + pathLoads (fun s => s ∈ ss) d ≤ j ∧
            j < 1 + pathLoads (fun s => s ∈ ss) d + pathLoads (fun s => s ∈ ss) d ∧ fl j = true) := by
      intro d hd h0 ⟨j, hj, hfj⟩
      obtain ⟨q1, q2⟩ := findF_loads hlive fl d n 1 hn hr
      by_cases hex : ∃ j, 1 ≤ j ∧ j < 1 + pathLoads (fun s => s ∈ ss) d ∧ fl j = true
      · exact Or.inl (q2 hex)
      · right
        have hall : ∀ j, 1 ≤ j → j < 1 + pathLoads (fun s => s ∈ ss) d → fl j = false := by
          intro j h1 h2
          cases hfj : fl j with
          | false => rfl
          | true => exact absurd ⟨j, h1, h2, hfj⟩ hex
        have hs := q1 hall
        have hfound : ∃ b, findF d n fl (c, 1) = (.ok b, (c, 1 + pathLoads (fun s => s ∈ ss) d)) ∧ (b = true ↔ d ∈ ss) := by
          have hag := findF_ref d n fl (c, 1)
          obtain ⟨r, h2, h3⟩ := find_spec hw d n hn hr (NoFork.of_len (fun s hs => by rw [hlen s hs, hd]))
          obtain ⟨c3, h4, _⟩ := find_sim d n hlive.ext r (twinC c) h2
          cases e : findF d n fl (c, 1) with
          | mk a s =>
            rw [e] at hs hag
            simp only at hs
            subst hs
            simp only at hag
            rw [h4] at hag
            cases a with
            | ok b =>
              have hag : (Res.ok (r, c3) : Res CacheError _) = .ok (b, c) := hag
              injection hag with hag
              injection hag with hag _
              subst hag
              exact ⟨_, rfl, h3⟩
            | err x =>
              exfalso
              have hno := findF_quiet hlive fl d n 1 hn hr hall
              rw [e] at hno
              exact hno x rfl
            | panic =>
              have hag : (Res.ok (r, c3) : Res CacheError _) = .panic := hag
              cases hag
        obtain ⟨b, e1, e2⟩ := hfound
        refine ⟨b, e1, e2, j, ?_, by omega, hfj⟩
        by_contra hlt
        rcases Nat.eq_zero_or_pos j with rfl | hpos
        · rw [h0] at hfj; cases hfj
        · exact hex ⟨j, hpos, by omega, hfj⟩
    have hget : fl 0 = false → getNodeF id fl (c, 0) = (.ok n, (c, 1)) := fun h0 => by
      simp [getNodeF, h0, hlive.getNode hn]
    have hbad : fl 0 = true → getNodeF id fl (c, 0) = (.err .storageAccessFailed, (c, 1)) := fun h0 => by
      simp [getNodeF, h0]
    cases op with
    | rootHash => exact hf.elim
    | add d =>
      have hmem : d ∉ ss := by
        intro hm
        exact hch (by simp only [specStep, if_pos hm])
      have key : ∃ k, addBody d id fl (c, 0) = (.err .storageAccessFailed, (c, k)) := by
        show ∃ k, FM.bind (getNodeF id) _ fl (c, 0) = _
        unfold FM.bind
        cases h0 : fl 0 with
        | true => rw [hbad h0]; exact ⟨_, rfl⟩
        | false =>
          rw [hget h0]
          show ∃ k, FM.bind (findF d n) _ fl (c, 1) = _
          unfold FM.bind
          rcases search d hop h0 hf.2 with ⟨s1, s2⟩ | ⟨x, s1, s3, s2⟩
          · cases e2 : findF d n fl (c, 1) with
            | mk r s =>
              rw [e2] at s1 s2
              simp only at s1 s2
              subst s1
              obtain ⟨c', k'⟩ := s
              simp only at s2
              subst s2
              exact ⟨k', rfl⟩
          · obtain ⟨a1, a2⟩ := addF_loads hlive fl d n [] _ hn hr s2
            have hx : x = false := by
              cases x with
              | false => rfl
              | true => exact absurd (s3.1 rfl) hmem
            subst hx
            rw [s1]
            show ∃ k, FM.bind (addF d n []) _ fl (c, 1 + pathLoads (fun s => s ∈ ss) d) = _
            unfold FM.bind
            cases e3 : addF d n [] fl (c, 1 + pathLoads (fun s => s ∈ ss) d) with
            | mk r s =>
              rw [e3] at a1 a2
              simp only at a1 a2
              subst a1
              obtain ⟨c', k'⟩ := s
              simp only at a2
              subst a2
              exact ⟨k', rfl⟩
      obtain ⟨k, e⟩ := key
      simp only [callF, Verif.Trie.Trie.addF, e]
      rfl
    | delete d =>
      have hmem : d ∈ ss := by
        by_contra hm
        refine hch ?_
        simp only [specStep]
        rw [List.filter_eq_self]
        intro s hs
        simp only [decide_eq_true_eq, ne_eq]
        rintro rfl; exact hm hs
      have hl : ¬ d.length ≠ el := by rw [hop]; exact fun h => h hel.symm
      have key : ∃ k, deleteBody d id fl (c, 0) = (.err .storageAccessFailed, (c, k)) := by
        show ∃ k, FM.bind (getNodeF id) _ fl (c, 0) = _
        unfold FM.bind
        cases h0 : fl 0 with
        | true => rw [hbad h0]; exact ⟨_, rfl⟩
        | false =>
          rw [hget h0]
          show ∃ k, FM.bind (findF d n) _ fl (c, 1) = _
          unfold FM.bind
          rcases search d hop h0 hf.2 with ⟨s1, s2⟩ | ⟨x, s1, s3, s2⟩
          · cases e2 : findF d n fl (c, 1) with
            | mk r s =>
              rw [e2] at s1 s2
              simp only at s1 s2
              subst s1
              obtain ⟨c', k'⟩ := s
              simp only at s2
              subst s2
              exact ⟨k', rfl⟩
          · have hleaf : n.isLeaf = false := by
              cases hl : n.isLeaf with
              | false => rfl
              | true =>
                exfalso
                obtain ⟨j, _, h2, _⟩ := s2
                cases hr with
                | leaf _ _ _ _ _ suffix hg' hS' => rw [pathLoads_leaf hS'] at h2; omega
                | node _ _ _ _ _ _ _ _ _ hg' =>
                  rw [hn] at hg'; injection hg' with hg'; subst hg'; cases hl
            obtain ⟨a1, a2⟩ := removeF_loads hlive fl d n [] _ hn hr s2
            have hx : x = true := s3.2 hmem
            subst hx
            rw [s1]
            simp only [Bool.not_true, Bool.false_eq_true, if_false, hleaf]
            show ∃ k, FM.bind (removeF d n []) _ fl (c, 1 + pathLoads (fun s => s ∈ ss) d) = _
            unfold FM.bind
            cases e3 : removeF d n [] fl (c, 1 + pathLoads (fun s => s ∈ ss) d) with
            | mk r s =>
              rw [e3] at a1 a2
              simp only at a1 a2
              subst a1
              obtain ⟨c', k'⟩ := s
              simp only at a2
              subst a2
              exact ⟨k', rfl⟩
      obtain ⟨k, e⟩ := key
      simp only [callF, Trie.deleteF, if_neg hl, e]
      rfl

/-- **C128**, the part that holds: a failed call changes nothing if it would not have changed the set, or if it fails while
it searches, before its first store; all later answers are right. Missing: a call that fails at or after its first store
(`C128_violated`). -/
theorem C128_early_partial (H : Bytes → Bytes) (L : Nat) (hL : L < 2 ^ 32) (calls : List (TrieOp × (Nat → Bool)))
    (h : OfLen L (calls.map Prod.fst)) (hq : HarmlessFailures [] calls) :
    AsIfAtomic H [] calls (runFaulty H Trie.new calls).1 := by
  have key : ∀ (calls : List (TrieOp × (Nat → Bool))) (t : Trie) (ss : List Bytes), FInv H L t ss →
      OfLen L (calls.map Prod.fst) → HarmlessFailures ss calls → AsIfAtomic H ss calls (runFaulty H t calls).1 := by
    intro calls
    induction calls with
    | nil => intro _ _ _ _ _; trivial
    | cons c calls ih =>
      intro t ss hi hl hq
      obtain ⟨op, fl⟩ := c
      simp only [List.map_cons] at hl
      simp only [runFaulty]
      have out := hi.outcome hL op hl.head fl
      rcases hq with ⟨hnone, hq⟩ | ⟨hcase, hq⟩
      · rcases out with ⟨e, hi'⟩ | ⟨_, k, hk⟩ | ⟨_, _, _, hk⟩
        · exact Or.inl ⟨_, e, rfl, ih _ _ hi' hl.tail hq⟩
        · rw [hnone] at hk; cases hk
        · rw [hnone] at hk; cases hk
      · by_cases hs : specStep ss op = ss
        · have stay := ih _ _ (hi.unchanged op hl.head fl hs) hl.tail hq
          rcases out with ⟨e, hi'⟩ | ⟨e, k, hk⟩ | ⟨e, _, _, hk⟩
          · exact Or.inl ⟨_, e, rfl, by rw [hs]; exact stay⟩
          · exact Or.inr ⟨(fun o ho => by rw [e] at ho; cases ho), ⟨k, hk⟩, stay⟩
          · exact Or.inr ⟨(fun o ho => by rw [e] at ho; cases ho), ⟨0, hk⟩, stay⟩
        · have hf := hcase.resolve_left hs
          have e := hi.early op hl.head fl hf hs
          rw [e]
          refine Or.inr ⟨(fun o ho => by cases ho), ?_, ih _ _ hi hl.tail hq⟩
          cases op with
          | add d => obtain ⟨_, j, _, hj⟩ := hf; exact ⟨j, hj⟩
          | delete d => obtain ⟨_, j, _, hj⟩ := hf; exact ⟨j, hj⟩
          | rootHash => exact hf.elim
  exact key calls Trie.new [] FInv.new h hq

/-- Two elements; adding a third fails at the load of the root, deleting the second fails at the third load. -/
example : HarmlessFailures [] [(.add [0], fun _ => false), (.add [1], fun _ => false), (.add [2], fun k => k == 0),
    (.delete [1], fun k => k == 2), (.rootHash, fun _ => false)] := by
  have hp : pathLoads (fun s => s ∈ [[1], [0]]) [1] = 1 := by
    rw [pathLoads, if_pos ⟨⟨[1], [0], by simp, by simp, by simp⟩, [], by simp⟩]; rfl
  refine Or.inl ⟨fun _ => rfl, Or.inl ⟨fun _ => rfl, Or.inr ⟨Or.inr ⟨by simp [specStep], 0, by omega, rfl⟩, ?_⟩⟩⟩
  refine Or.inr ⟨Or.inr ⟨by simp [specStep], 2, ?_, rfl⟩, Or.inl ⟨fun _ => rfl, trivial⟩⟩
  show 2 ≤ 2 * pathLoads (fun s => s ∈ [[1], [0]]) [1]
  omega

end Verif.Props
