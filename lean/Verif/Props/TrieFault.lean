import Verif.Props.TrieReopen
import Verif.Lemmas.TrieFault
/-!
# C127-C129: the merkle trie on a storage whose accesses can fail
-/

namespace Verif.Props
open Verif Verif.Trie

variable {H : Bytes → Bytes} {L : Nat}

/-! ## What is left behind -/

/-- Every node in memory can be read from the storage, in whatever version, and the counter is ahead. -/
structure Live (c : Cache) : Prop where
  fresh : ∀ i, c.next ≤ i → c.cache i = none
  loads : ∀ i n, c.cache i = some n → ∃ d m, c.storage i = some d ∧ deserialize d = some m

/-- The same nodes on a storage that holds exactly them. -/
def twinC (c : Cache) : Cache := ⟨fun i => (c.cache i).map Node.serialize, c.cache, c.next⟩

theorem Live.twin_wf {c : Cache} (h : Live c) : (twinC c).WF := ⟨fun _ => rfl, h.fresh⟩

theorem Live.ext {c : Cache} (h : Live c) : Ext (twinC c) c := by
  refine ⟨rfl, rfl, fun i d hd => ?_⟩
  simp only [twinC, Option.map_eq_some_iff] at hd ⊢
  obtain ⟨n, hn, _⟩ := hd
  exact ⟨⟨n, hn⟩, h.loads i n hn⟩

theorem Live.of_ext {c c' : Cache} (hw : c.WF) (h : Ext c c') : Live c' ∧ twinC c' = c := by
  refine ⟨⟨fun i hi => ?_, fun i n hn => ?_⟩, ?_⟩
  · rw [h.cache]; exact hw.fresh i (by rw [← h.next]; exact hi)
  · rw [h.cache] at hn
    have := hw.sync i
    rw [hn] at this
    exact (h.storage i _ this).2
  · obtain ⟨st, g, nx⟩ := c
    have h1 := h.cache
    have h2 := h.next
    simp only at h1 h2
    simp only [twinC, h1, h2]
    congr 1
    funext i
    exact (hw.sync i).symm

theorem Live.getNode {c : Cache} (h : Live c) {i n} (hi : c.cache i = some n) : c.getNode i = .ok (n, c) := by
  obtain ⟨d, m, h1, h2⟩ := h.loads i n hi
  simp [Cache.getNode, h1, h2, hi]

theorem Live.getNodeF {c : Cache} (h : Live c) {i n} (hi : c.cache i = some n) (fl : Nat → Bool) (k : Nat) :
    getNodeF i fl (c, k) = (.err .storageAccessFailed, (c, k + 1)) ∨ getNodeF i fl (c, k) = (.ok n, (c, k + 1)) := by
  unfold Trie.getNodeF
  by_cases hf : fl k
  · left; rw [if_pos hf]
  · right; rw [if_neg hf]; simp only [h.getNode hi]

theorem Live.setNodeF {c : Cache} (h : Live c) {i m} (hi : c.cache i = some m) (n : Node) (fl : Nat → Bool) (k : Nat) :
    ∃ c', (setNodeF i n fl (c, k)).2 = (c', k + 1) ∧ Live c' ∧ c'.cache = put c.cache i (some n) ∧ c'.next = c.next := by
  have hlt : i < c.next := by
    by_contra hge
    rw [h.fresh i (by omega)] at hi; cases hi
  unfold Trie.setNodeF
  by_cases hf : fl k
  · rw [if_pos hf]
    refine ⟨_, rfl, ⟨fun j hj => ?_, fun j x hx => ?_⟩, rfl, rfl⟩
    · simp only at hj ⊢
      rw [put_ne _ _ (by omega)]; exact h.fresh j hj
    · simp only at hx ⊢
      by_cases e : j = i
      · subst e; exact h.loads j m hi
      · rw [put_ne _ _ e] at hx; exact h.loads j x hx
  · rw [if_neg hf]
    refine ⟨_, rfl, ⟨fun j hj => ?_, fun j x hx => ?_⟩, rfl, rfl⟩
    · simp only [Cache.setNode] at hj ⊢
      rw [put_ne _ _ (by omega)]; exact h.fresh j hj
    · simp only [Cache.setNode, storeNode] at hx ⊢
      by_cases e : j = i
      · subst e
        have : n.serialize.isEmpty = false := by simpa using serialize_ne_nil n
        rw [put_same, this]
        exact ⟨_, _, rfl, deserialize_serialize n⟩
      · rw [put_ne _ _ e] at hx ⊢; exact h.loads j x hx

/-- Looking up reads only nodes in memory: nothing changes, whether or not an access fails. -/
theorem findF_keeps {c : Cache} (hc : Live c) (fl : Nat → Bool) (d : Bytes) : ∀ (self : Node) (k : Nat) {path id S F v},
    c.cache id = some self → Rep H c.cache path id S F v → (findF d self fl (c, k)).2.1 = c := by
  induction d with
  | nil =>
    intro self k path id S F v hself hrep
    unfold findF
    cases self.children <;> rfl
  | cons b rest ih =>
    intro self k path id S F v hself hrep
    unfold findF
    cases hch : self.children with
    | none => rfl
    | some ch =>
      simp only
      cases hb : ch b with
      | none => rfl
      | some cid =>
        cases hrep with
        | leaf _ _ _ _ _ _ hg => rw [hself] at hg; injection hg with hg; subst hg; cases hch
        | node _ _ _ _ dty h ch' FB VB hg hnil hno hrec =>
          rw [hself] at hg; injection hg with hg; subst hg
          injection hch with hch; subst hch
          have hr := hrec b cid hb
          obtain ⟨n, hn⟩ := hr.some_of_mem cid hr.mem_root
          show (FM.bind (getNodeF cid) (fun child => findF rest child) fl (c, k)).2.1 = c
          unfold FM.bind
          rcases hc.getNodeF hn fl k with e | e
          · rw [e]
          · rw [e]; exact ih n _ hn hr

theorem accumulateF_keeps {c : Cache} (hc : Live c) (fl : Nat → Bool) : ∀ (l : List (UInt8 × Nat)) (k : Nat),
    (∀ b i, (b, i) ∈ l → ∃ n, c.cache i = some n) → (accumulateF l fl (c, k)).2.1 = c
  | [], _, _ => rfl
  | (b, i) :: l, k, h => by
    obtain ⟨n, hn⟩ := h b i List.mem_cons_self
    have ih := fun k => accumulateF_keeps hc fl l k (fun b i hi => h b i (List.mem_cons_of_mem _ hi))
    unfold accumulateF
    show (FM.bind (getNodeF i) _ fl (c, k)).2.1 = c
    unfold FM.bind
    rcases hc.getNodeF hn fl k with e | e
    · rw [e]
    · rw [e]
      show (FM.bind (accumulateF l) _ fl (c, k + 1)).2.1 = c
      unfold FM.bind
      have := ih (k + 1)
      cases e2 : accumulateF l fl (c, k + 1) with
      | mk r s =>
        rw [e2] at this
        cases r <;> exact this

/-- If hashing a subtrie succeeded, putting the result in memory keeps what the subtrie stands for. -/
theorem hash_ok_rep {c : Cache} (hc : Live c) {fl fuel self k n' s} {path id S F v}
    (hself : c.cache id = some self) (hrep : Rep H c.cache path id S F v) (hlen : Room F fuel)
    (e : calculateHashF H fuel self fl (c, k) = (.ok n', s)) :
    Rep H (put s.1.cache id (some n')) path id S F v ∧ n'.isLeaf = v.1 ∧ n'.hash = v.2 := by
  have h1 := (calculateHashF_ref H fuel self).ok e
  obtain ⟨n2, c2, h2, hok, e1, e2⟩ := calculateHash_spec (H := H) fuel self (twinC c) hc.twin_wf hself hrep hlen
  obtain ⟨c3, h3, hx⟩ := calculateHash_sim H fuel self (twinC c) c hc.ext n2 c2 h2
  simp only at h1
  rw [h3] at h1
  injection h1 with h1; injection h1 with ha hb
  subst ha
  rw [← hb, hx.cache]
  exact ⟨hok.rep, e1, e2⟩

/-- What holds after hashing, however far it got. -/
structure Kept (H : Bytes → Bytes) (c c' : Cache) (path : Bytes) (id : Nat) (S : Bytes → Prop) (F : Nat → Prop)
    (v : View) : Prop where
  live : Live c'
  next : c'.next = c.next
  frame : ∀ i, ¬ F i → c'.cache i = c.cache i
  rep : Rep H c'.cache path id S F v
  root : c'.cache id = c.cache id

theorem calcChildrenF_keeps (fl : Nat → Bool) (ch : Children) (path : Bytes) (SB : UInt8 → Bytes → Prop)
    (FB : UInt8 → Nat → Prop) (VB : UInt8 → View)
    (hdisj : ∀ b b' c c' i, ch b = some c → ch b' = some c' → FB b i → FB b' i → b = b') (fuel : Nat)
    (hlen : ∀ b cb, ch b = some cb → Room (FB b) fuel)
    (hrec : ∀ b cb c n k, ch b = some cb → Live c → c.cache cb = some n →
      Rep H c.cache (path ++ [b]) cb (SB b) (FB b) (VB b) →
      Kept H c (calculateHashF H fuel n fl (c, k)).2.1 (path ++ [b]) cb (SB b) (FB b) (VB b)) :
    ∀ (l : List (UInt8 × Nat)) (c : Cache) (k : Nat), Live c → (∀ b cb, (b, cb) ∈ l → ch b = some cb) →
      (∀ b cb, ch b = some cb → Rep H c.cache (path ++ [b]) cb (SB b) (FB b) (VB b)) →
      ∃ c' k', (calcChildrenF (calculateHashF H fuel) l fl (c, k)).2 = (c', k') ∧ Live c' ∧ c'.next = c.next ∧
        (∀ i, (¬ ∃ b cb, ch b = some cb ∧ FB b i) → c'.cache i = c.cache i) ∧
        (∀ b cb, ch b = some cb → Rep H c'.cache (path ++ [b]) cb (SB b) (FB b) (VB b)) := by
  intro l
  induction l with
  | nil => intro c k hc _ hr; exact ⟨c, k, rfl, hc, rfl, fun _ _ => rfl, hr⟩
  | cons p l ih =>
    intro c k hc hl hr
    obtain ⟨b, cb⟩ := p
    have hb : ch b = some cb := hl b cb List.mem_cons_self
    have hrb := hr b cb hb
    obtain ⟨n, hn⟩ := hrb.some_of_mem cb hrb.mem_root
    have hl' : ∀ b cb, (b, cb) ∈ l → ch b = some cb := fun x cx hx => hl x cx (List.mem_cons_of_mem _ hx)
    have step : ∀ (c1 : Cache), (∀ i, ¬ FB b i → c1.cache i = c.cache i) →
        Rep H c1.cache (path ++ [b]) cb (SB b) (FB b) (VB b) →
        ∀ x cx, ch x = some cx → Rep H c1.cache (path ++ [x]) cx (SB x) (FB x) (VB x) := by
      intro c1 hf hr1 x cx hcx
      by_cases e : x = b
      · subst e; rw [hb] at hcx; injection hcx with hcx; subst hcx; exact hr1
      · exact (hr x cx hcx).frame _ (fun i hi => hf i (fun hi' => e (hdisj x b cx cb i hcx hb hi hi')))
    unfold calcChildrenF
    show ∃ c' k', (FM.bind (getNodeF cb) _ fl (c, k)).2 = (c', k') ∧ _
    unfold FM.bind
    rcases hc.getNodeF hn fl k with e | e
    · rw [e]; exact ⟨c, k + 1, rfl, hc, rfl, fun _ _ => rfl, hr⟩
    · rw [e]
      simp only
      cases hcond : (!n.isLeaf && n.dirty) with
      | false => simp only [Bool.false_eq_true, if_false]; exact ih c (k + 1) hc hl' hr
      | true =>
        simp only [if_true]
        have hk := hrec b cb c n (k + 1) hb hc hn hrb
        show ∃ c' k', (FM.bind (calculateHashF H fuel n) _ fl (c, k + 1)).2 = (c', k') ∧ _
        unfold FM.bind
        cases e1 : calculateHashF H fuel n fl (c, k + 1) with
        | mk r s =>
          rw [e1] at hk
          obtain ⟨c1, k1⟩ := s
          have stopped : Live c1 ∧ c1.next = c.next ∧
              (∀ i, (¬ ∃ b cb, ch b = some cb ∧ FB b i) → c1.cache i = c.cache i) ∧
              (∀ b cb, ch b = some cb → Rep H c1.cache (path ++ [b]) cb (SB b) (FB b) (VB b)) :=
            ⟨hk.live, hk.next, fun i hi => hk.frame i (fun h => hi ⟨b, cb, hb, h⟩), step c1 hk.frame hk.rep⟩
          cases r with
          | err x => exact ⟨c1, k1, rfl, stopped⟩
          | panic => exact ⟨c1, k1, rfl, stopped⟩
          | ok n' =>
            simp only
            have hrep := (hash_ok_rep hc hn hrb (hlen b cb hb) e1).1
            have hcb : c1.cache cb = some n := by rw [hk.root]; exact hn
            obtain ⟨c2, h2, hl2, hg2, hn2⟩ := hk.live.setNodeF hcb n' fl k1
            have hframe : ∀ i, ¬ FB b i → c2.cache i = c.cache i := by
              intro i hi
              rw [hg2, put_ne]
              · exact hk.frame i hi
              · rintro rfl; exact hi hrb.mem_root
            have hr2 := step c2 hframe (by rw [hg2]; exact hrep)
            show ∃ c' k', (FM.bind (setNodeF cb n') _ fl (c1, k1)).2 = (c', k') ∧ _
            unfold FM.bind
            cases e3 : setNodeF cb n' fl (c1, k1) with
            | mk r3 s3 =>
              rw [e3] at h2
              simp only at h2
              subst h2
              cases r3 with
              | err x =>
                exact ⟨c2, k1 + 1, rfl, hl2, hn2.trans hk.next, fun i hi => hframe i (fun h => hi ⟨b, cb, hb, h⟩), hr2⟩
              | panic =>
                exact ⟨c2, k1 + 1, rfl, hl2, hn2.trans hk.next, fun i hi => hframe i (fun h => hi ⟨b, cb, hb, h⟩), hr2⟩
              | ok u =>
                simp only
                obtain ⟨c3, k3, g1, g2, g3, g4, g5⟩ := ih c2 (k1 + 1) hl2 hl' hr2
                exact ⟨c3, k3, g1, g2, g3.trans (hn2.trans hk.next), fun i hi =>
                  (g4 i hi).trans (hframe i (fun h => hi ⟨b, cb, hb, h⟩)), g5⟩

theorem calculateHashF_keeps (fl : Nat → Bool) : ∀ (fuel : Nat) (self : Node) (c : Cache) (k : Nat), Live c →
    ∀ {path id S F v}, c.cache id = some self → Rep H c.cache path id S F v → Room F fuel →
    Kept H c (calculateHashF H fuel self fl (c, k)).2.1 path id S F v := by
  intro fuel
  induction fuel with
  | zero =>
    intro self c k hc path id S F v hself hrep hlen
    exact ⟨hc, rfl, fun _ _ => rfl, hrep, rfl⟩
  | succ fuel ih =>
    intro self c k hc path id S F v hself hrep hlen
    unfold calculateHashF
    cases hch : self.children with
    | none => exact ⟨hc, rfl, fun _ _ => rfl, hrep, rfl⟩
    | some ch0 =>
      simp only
      cases hd : self.dirty with
      | false => exact ⟨hc, rfl, fun _ _ => rfl, hrep, rfl⟩
      | true =>
        simp only [Bool.not_true, Bool.false_eq_true, if_false]
        cases hrep with
        | leaf _ _ _ _ _ _ hg => rw [hself] at hg; injection hg with hg; subst hg; cases hch
        | node _ _ _ _ dty h ch FB VB hg hnil hno hrec hF hid hdisj h2 hclean hdirty =>
          have hg' := hg
          rw [hself] at hg; injection hg with hg; subst hg
          injection hch with hch; subst hch
          have hroom : ∀ b cb, ch b = some cb → Room (FB b) fuel := fun b cb hb =>
            hlen.child ((hF id).2 (Or.inl rfl)) (fun i hi => (hF i).2 (Or.inr ⟨b, cb, hb, hi⟩)) (hid b cb hb)
          obtain ⟨c1, k1, g0, g1, g2, g3, g4⟩ := calcChildrenF_keeps (H := H) fl ch path (fun b s => S (b :: s)) FB VB hdisj
            fuel (fun b cb hb => hroom b cb hb)
            (fun b cb c n k hb hc hn hr => ih n c k hc hn hr (hroom b cb hb))
            (childList ch) c k hc (fun b cb hb => (mem_childList ch b cb).1 hb) hrec
          have hroot : c1.cache id = c.cache id := g3 id (by rintro ⟨b, cb, hb, hi⟩; exact hid b cb hb hi)
          have kept : Kept H c c1 path id S F (false, H (nodeBuffer path (childViews ch VB))) := by
            refine ⟨g1, g2, fun i hi => g3 i (fun hx => hi ((hF i).2 (Or.inr hx))), ?_, hroot⟩
            exact Rep.node _ _ _ _ dty h ch FB VB (by rw [hroot]; exact hg') hnil hno g4 hF hid hdisj h2 hclean hdirty
          have hacc := fun k => accumulateF_keeps g1 fl (childList ch) k (fun b i hi => by
            have := g4 b i ((mem_childList ch b i).1 hi)
            exact this.some_of_mem i this.mem_root)
          show Kept H c (FM.bind (calcChildrenF (calculateHashF H fuel) (childList ch)) _ fl (c, k)).2.1 _ _ _ _ _
          unfold FM.bind
          cases e1 : calcChildrenF (calculateHashF H fuel) (childList ch) fl (c, k) with
          | mk r s =>
            rw [e1] at g0
            simp only at g0
            subst g0
            cases r with
            | err x => exact kept
            | panic => exact kept
            | ok u =>
              show Kept H c (FM.bind (accumulateF (childList ch)) _ fl (c1, k1)).2.1 _ _ _ _ _
              unfold FM.bind
              have ha := hacc k1
              cases e2 : accumulateF (childList ch) fl (c1, k1) with
              | mk r2 s2 =>
                rw [e2] at ha
                simp only at ha
                cases r2 <;> (simp only; show Kept H c s2.1 _ _ _ _ _; rw [ha]; exact kept)

/-! ## Whole operations -/

/-- Rename the answer. -/
def mapAnswer {α β : Type} (f : α → β) : Res TrieError α × Trie → Res TrieError β × Trie
  | (.ok a, t) => (.ok (f a), t)
  | (.err e, t) => (.err e, t)
  | (.panic, t) => (.panic, t)

/-- A trie call on a storage whose access number `k` fails if `fl k`. -/
def callF (H : Bytes → Bytes) (fl : Nat → Bool) (t : Trie) : TrieOp → Res TrieError TrieOut × Trie
  | .add d => mapAnswer .flag (Verif.Trie.Trie.addF fl t d)
  | .delete d => mapAnswer .flag (t.deleteF fl d)
  | .rootHash => mapAnswer .hash (t.rootHashF H fl)

/-- What the call should answer on a trie holding `ss`. -/
def specAnswer (H : Bytes → Bytes) (ss : List Bytes) : TrieOp → TrieOut
  | .add d => .flag (decide (d ∉ ss))
  | .delete d => .flag (decide (d ∈ ss))
  | .rootHash => .hash (specRoot H ss)

/-- A history with a storage that may fail: every call comes with the accesses that fail during it. The answers of all
calls are kept, also of those after a failed one. -/
def runFaulty (H : Bytes → Bytes) (t : Trie) : List (TrieOp × (Nat → Bool)) → List (Res TrieError TrieOut) × Trie
  | [] => ([], t)
  | (op, fl) :: calls =>
    let r := callF H fl t op
    let rest := runFaulty H r.2 calls
    (r.1 :: rest.1, rest.2)

/-- The storage failure as reported by a trie. -/
abbrev storageError : TrieError := .cacheAccess .storageAccessFailed

/-- The outcome of a call on a failing storage is a reported storage failure, or the one on a working storage. -/
def AgreesT {α : Type} (fl : Nat → Bool) : Res TrieError α × Trie → Res TrieError (α × Trie) → Prop
  | (.ok a, t), r => r = .ok (a, t)
  | (.err e, _), r => (e = storageError ∧ ∃ k, fl k = true) ∨ r = .err e
  | (.panic, _), r => r = .panic

theorem stop_agrees {α β : Type} (t : Trie) {m : FM α} {p : Cache → Res CacheError (α × Cache)} (h : Ref m p)
    (fl : Nat → Bool) (k : α → FState → Res TrieError β × Trie) (q : α → Cache → Res TrieError (β × Trie))
    (hk : ∀ a s, AgreesT fl (k a s) (q a s.1)) :
    AgreesT fl (t.stop (m fl (t.cache, 0)) k) (liftE (p t.cache) >>= fun x => q x.1 x.2) := by
  have hm := h fl (t.cache, 0)
  cases e : m fl (t.cache, 0) with
  | mk r s =>
    rw [e] at hm
    cases r with
    | ok a =>
      have hm : p t.cache = .ok (a, s.1) := hm
      rw [hm]; exact hk a s
    | err x =>
      have hm : (x = .storageAccessFailed ∧ ∃ k, fl k = true) ∨ p t.cache = .err x := hm
      rcases hm with ⟨hm, hk⟩ | hm
      · rw [hm]; exact Or.inl ⟨rfl, hk⟩
      · rw [hm]; exact Or.inr rfl
    | panic =>
      have hm : p t.cache = .panic := hm
      rw [hm]; exact rfl

theorem AgreesT.congr {α : Type} {fl : Nat → Bool} {x : Res TrieError α × Trie} {r r' : Res TrieError (α × Trie)} (h : AgreesT fl x r)
    (e : r = r') : AgreesT fl x r' := e ▸ h

theorem hashBody_ref (budget id : Nat) : Ref (hashBody H budget id) (fun c => c.getNode id >>= fun x =>
    calculateHash H budget x.1 x.2 >>= fun y => .ok (y.1, y.2.setNode id y.1)) :=
  Ref.bind (getNodeF_ref id) (fun root => Ref.bind (calculateHashF_ref H _ root) (fun root =>
    Ref.bind (setNodeF_ref id root) (fun _ => Ref.pure root)))

theorem addBody_ref (d : Bytes) (id : Nat) : Ref (addBody d id) (fun c => c.getNode id >>= fun x =>
    find d x.1 x.2 >>= fun y => if y.1 then .ok (none, y.2) else
      Verif.Trie.add d x.1 [] y.2 >>= fun z => .ok (some z.1, z.2.deleteNode id)) := by
  refine Ref.bind (getNodeF_ref id) (fun pnode => Ref.bind (findF_ref d pnode)
    (q := fun found c => if found then .ok (none, c) else Verif.Trie.add d pnode [] c >>= fun x =>
      .ok (some x.1, x.2.deleteNode id)) (fun found => ?_))
  cases found with
  | true => exact Ref.pure _
  | false => exact Ref.bind (addF_ref d pnode []) (fun newRoot => Ref.bind (deleteNodeF_ref id) (fun _ => Ref.pure _))

theorem deleteBody_ref (d : Bytes) (id : Nat) : Ref (deleteBody d id) (fun c => c.getNode id >>= fun x =>
    find d x.1 x.2 >>= fun y => if !y.1 then .ok (.absent, y.2) else
      if x.1.isLeaf then .ok (.emptied, y.2.deleteNode id) else
      remove d x.1 [] y.2 >>= fun z => .ok (.replaced z.1, z.2.deleteNode id)) := by
  refine Ref.bind (getNodeF_ref id) (fun pnode => Ref.bind (findF_ref d pnode)
    (q := fun found c => if !found then .ok (Deleted.absent, c) else if pnode.isLeaf then .ok (Deleted.emptied, c.deleteNode id)
      else remove d pnode [] c >>= fun x => .ok (Deleted.replaced x.1, x.2.deleteNode id)) (fun found => ?_))
  cases found with
  | false => exact Ref.pure _
  | true =>
    simp only [Bool.not_true, Bool.false_eq_true, if_false]
    cases pnode.isLeaf with
    | true => exact Ref.bind (deleteNodeF_ref id) (fun _ => Ref.pure _)
    | false =>
      exact Ref.bind (removeF_ref d pnode []) (fun newRoot => Ref.bind (deleteNodeF_ref id) (fun _ => Ref.pure _))

theorem rootHashF_agrees (fl : Nat → Bool) (t : Trie) : AgreesT fl (t.rootHashF H fl) (t.rootHash H) := by
  obtain ⟨root, c, el⟩ := t
  cases root with
  | none => exact rfl
  | some id =>
    refine (stop_agrees ⟨some id, c, el⟩ (hashBody_ref c.next id) fl
      (fun root s => (.ok (if root.isLeaf then H (0 :: root.hash) else H (1 :: root.hash)), ⟨some id, s.1, el⟩))
      (fun root c => .ok (if root.isLeaf then H (0 :: root.hash) else H (1 :: root.hash), ⟨some id, c, el⟩))
      (fun a s => rfl)).congr ?_
    simp only [Trie.rootHash]
    cases c.getNode id with
    | ok x =>
      simp only [liftE, Res.ok_bind]
      cases calculateHash H c.next x.1 x.2 with
      | ok y =>
        simp only [liftE, Res.ok_bind]
        cases y.1.isLeaf <;> rfl
      | err e => rfl
      | panic => rfl
    | err e => rfl
    | panic => rfl

theorem addF_agrees (fl : Nat → Bool) (t : Trie) (d : Bytes) (h : t.root ≠ none ∨ fl 0 = false) :
    AgreesT fl (Verif.Trie.Trie.addF fl t d) (t.add d) := by
  obtain ⟨root, c, el⟩ := t
  cases root with
  | none =>
    rcases h with h | h
    · exact absurd rfl h
    · simp only [Verif.Trie.Trie.addF, setNodeF, h]
      exact rfl
  | some id =>
    refine (stop_agrees ⟨some id, c, el⟩ (addBody_ref d id) fl
      (fun r s => match r with
        | none => (.ok false, ⟨some id, s.1, el⟩)
        | some newRoot => (.ok true, ⟨some newRoot, s.1, el⟩))
      (fun r c => match r with
        | none => .ok (false, ⟨some id, c, el⟩)
        | some newRoot => .ok (true, ⟨some newRoot, c, el⟩)) ?_).congr ?_
    · intro r s
      cases r <;> exact rfl
    · simp only [Verif.Trie.Trie.add]
      cases c.getNode id with
      | ok x =>
        simp only [liftE, Res.ok_bind]
        cases find d x.1 x.2 with
        | ok y =>
          obtain ⟨b, c⟩ := y
          simp only [liftE, Res.ok_bind]
          cases b with
          | true => rfl
          | false =>
            simp only [Bool.false_eq_true, if_false]
            cases Verif.Trie.add d x.1 [] c <;> rfl
        | err e => rfl
        | panic => rfl
      | err e => rfl
      | panic => rfl

theorem deleteF_agrees (fl : Nat → Bool) (t : Trie) (d : Bytes) : AgreesT fl (t.deleteF fl d) (t.delete d) := by
  obtain ⟨root, c, el⟩ := t
  cases root with
  | none => exact rfl
  | some id =>
    by_cases hl : d.length ≠ el
    · simp only [Trie.deleteF, Trie.delete]
      rw [if_pos hl, if_pos hl]; exact Or.inr rfl
    simp only [Trie.deleteF, Trie.delete]
    rw [if_neg hl, if_neg hl]
    refine (stop_agrees ⟨some id, c, el⟩ (deleteBody_ref d id) fl
      (fun r s => match r with
        | .absent => (.ok false, ⟨some id, s.1, el⟩)
        | .emptied => (.ok true, ⟨none, s.1, 0⟩)
        | .replaced newRoot => (.ok true, ⟨some newRoot, s.1, el⟩))
      (fun r c => match r with
        | .absent => .ok (false, ⟨some id, c, el⟩)
        | .emptied => .ok (true, ⟨none, c, 0⟩)
        | .replaced newRoot => .ok (true, ⟨some newRoot, c, el⟩)) ?_).congr ?_
    · intro r s
      cases r <;> exact rfl
    · simp only
      cases c.getNode id with
      | ok x =>
        simp only [liftE, Res.ok_bind]
        cases find d x.1 x.2 with
        | ok y =>
          obtain ⟨b, c⟩ := y
          simp only [liftE, Res.ok_bind]
          cases b with
          | false => rfl
          | true =>
            simp only [Bool.not_true, Bool.false_eq_true, if_false]
            cases x.1.isLeaf with
            | true => rfl
            | false =>
              simp only [Bool.false_eq_true, if_false]
              cases remove d x.1 [] c <;> rfl
        | err e => rfl
        | panic => rfl
      | err e => rfl
      | panic => rfl

theorem mapAnswer_agrees {α β : Type} {fl : Nat → Bool} (f : α → β) {x : Res TrieError α × Trie} {r : Res TrieError (α × Trie)}
    (hx : AgreesT fl x r) : AgreesT fl (mapAnswer f x) (r >>= fun x => .ok (f x.1, x.2)) := by
  obtain ⟨a, t'⟩ := x
  cases a with
  | ok a => have hx : r = .ok (a, t') := hx; rw [hx]; exact rfl
  | err e =>
    have hx : (e = storageError ∧ ∃ k, fl k = true) ∨ r = .err e := hx
    rcases hx with hx | hx
    · exact Or.inl hx
    · rw [hx]; exact Or.inr rfl
  | panic => have hx : r = .panic := hx; rw [hx]; exact rfl

theorem callF_agrees (fl : Nat → Bool) (t : Trie) (op : TrieOp)
    (h : (∃ d, op = .add d) → t.root = none → fl 0 = false) : AgreesT fl (callF H fl t op) (callOk H t op) := by
  cases op with
  | add d =>
    refine mapAnswer_agrees TrieOut.flag (addF_agrees fl t d ?_)
    by_cases hr : t.root = none
    · exact Or.inr (h ⟨d, rfl⟩ hr)
    · exact Or.inl hr
  | delete d => exact mapAnswer_agrees TrieOut.flag (deleteF_agrees fl t d)
  | rootHash => exact mapAnswer_agrees TrieOut.hash (rootHashF_agrees fl t)

/-! ## Invariant across failures -/

def twin (t : Trie) : Trie := { t with cache := twinC t.cache }

/-- The trie stands for `ss`, on a storage that may hold older versions of nodes. -/
structure FInv (H : Bytes → Bytes) (L : Nat) (t : Trie) (ss : List Bytes) : Prop where
  live : Live t.cache
  inv : TrieInv H L (twin t) ss

theorem FInv.new : FInv H L Trie.new [] :=
  ⟨⟨fun _ _ => rfl, fun _ _ h => by simp [Trie.new, Cache.new] at h⟩, TrieInv.new⟩

theorem FInv.ext {t : Trie} {ss} (h : FInv H L t ss) : TrieExt (twin t) t := ⟨rfl, h.live.ext, rfl⟩

theorem FInv.of_sim {t t' : Trie} {ss} (h : TrieInv H L t ss) (e : TrieExt t t') : FInv H L t' ss := by
  obtain ⟨h1, h2⟩ := Live.of_ext h.wf e.cache
  refine ⟨h1, ?_⟩
  have : twin t' = t := by
    obtain ⟨r, c, l⟩ := t
    obtain ⟨r', c', l'⟩ := t'
    have q1 := e.root
    have q3 := e.len
    simp only at q1 q3 h2
    simp only [twin, h2, q1, q3]
  rw [this]; exact h

/-- On a working storage the call answers as the set does, and the invariant is kept. -/
theorem FInv.callOk {t : Trie} {ss} (h : FInv H L t ss) (hL : L < u32Lim) (op : TrieOp) (hop : OfLen L [op]) :
    ∃ t', callOk H t op = .ok (specAnswer H ss op, t') ∧ FInv H L t' (specStep ss op) := by
  have hop := hop op List.mem_cons_self
  cases op with
  | add d =>
    obtain ⟨t1, e1, i1⟩ := h.inv.add hL d hop
    obtain ⟨t2, e2, x2⟩ := add_trie_sim h.ext d _ t1 e1
    exact ⟨t2, by simp only [Props.callOk, e2, Res.ok_bind]; rfl, .of_sim i1 x2⟩
  | delete d =>
    obtain ⟨t1, e1, i1⟩ := h.inv.delete d hop
    obtain ⟨t2, e2, x2⟩ := delete_trie_sim h.ext d _ t1 e1
    exact ⟨t2, by simp only [Props.callOk, e2, Res.ok_bind]; rfl, .of_sim i1 x2⟩
  | rootHash =>
    obtain ⟨t1, e1, i1⟩ := h.inv.rootHash
    obtain ⟨t2, e2, x2⟩ := rootHash_trie_sim h.ext _ t1 e1
    exact ⟨t2, by simp only [Props.callOk, e2, Res.ok_bind]; rfl, .of_sim i1 x2⟩

/-- The possible outcomes of a call: the right answer, a reported storage failure, or the panic of a failed first
`add`. -/
theorem FInv.outcome {t : Trie} {ss} (h : FInv H L t ss) (hL : L < u32Lim) (op : TrieOp) (hop : OfLen L [op])
    (fl : Nat → Bool) :
    ((callF H fl t op).1 = .ok (specAnswer H ss op) ∧ FInv H L (callF H fl t op).2 (specStep ss op)) ∨
    ((callF H fl t op).1 = .err storageError ∧ ∃ k, fl k = true) ∨
    ((callF H fl t op).1 = .panic ∧ (∃ d, op = .add d) ∧ ss = [] ∧ fl 0 = true) := by
  by_cases hc : (∃ d, op = .add d) → t.root = none → fl 0 = false
  · have ha := callF_agrees (H := H) fl t op hc
    obtain ⟨t', e, hi⟩ := h.callOk hL op hop
    rw [e] at ha
    cases ec : callF H fl t op with
    | mk r t2 =>
      rw [ec] at ha
      cases r with
      | ok a =>
        left
        have ha : (Res.ok (specAnswer H ss op, t') : Res TrieError _) = .ok (a, t2) := ha
        injection ha with ha; injection ha with h1 h2; subst h1; subst h2
        exact ⟨rfl, hi⟩
      | err x =>
        right; left
        have ha : (x = storageError ∧ ∃ k, fl k = true) ∨ (Res.ok (specAnswer H ss op, t') : Res TrieError _) = .err x := ha
        rcases ha with ⟨ha, hk⟩ | ha
        · exact ⟨by simp only [ha], hk⟩
        · cases ha
      | panic =>
        have ha : (Res.ok (specAnswer H ss op, t') : Res TrieError _) = .panic := ha
        cases ha
  · right; right
    simp only [Classical.not_imp] at hc
    obtain ⟨⟨d, rfl⟩, hroot, hfl⟩ := hc
    have hfl : fl 0 = true := by simpa using hfl
    refine ⟨?_, ⟨d, rfl⟩, ?_, hfl⟩
    · simp only [callF, Verif.Trie.Trie.addF, hroot, setNodeF, hfl, if_true, mapAnswer]
    · have := h.inv.repr
      simp only [twin, hroot] at this
      exact this.1

/-- A call that does not change the set leaves the trie standing for the same set, however far it got. -/
theorem FInv.unchanged {t : Trie} {ss} (h : FInv H L t ss) (op : TrieOp) (hop : OfLen L [op]) (fl : Nat → Bool)
    (hsame : specStep ss op = ss) : FInv H L (callF H fl t op).2 ss := by
  have hop := hop op List.mem_cons_self
  obtain ⟨root, c, el⟩ := t
  have hlive : Live c := h.live
  have hw : (twinC c).WF := h.inv.wf
  have hlen := h.inv.len
  have hrep := h.inv.repr
  simp only [twin] at hrep
  cases root with
  | none =>
    obtain ⟨rfl, _⟩ := hrep
    cases op with
    | add d => simp [specStep] at hsame
    | delete d => exact h
    | rootHash => exact h
  | some id =>
    obtain ⟨hel, F, v, hr, hF⟩ := hrep
    have hr : Rep H c.cache [] id (fun s => s ∈ ss) F v := hr
    obtain ⟨n, hn⟩ := hr.some_of_mem id hr.mem_root
    have cfg : ∀ d : Bytes, d.length = L → ∀ (k : Nat),
        (findF d n fl (c, k)).2.1 = c ∧ ∀ b s, findF d n fl (c, k) = (.ok b, s) → (b = true ↔ d ∈ ss) := by
      intro d hd k
      refine ⟨findF_keeps hlive fl d n k hn hr, fun b s e => ?_⟩
      have h1 := (findF_ref d n).ok e
      obtain ⟨r, h2, h3⟩ := find_spec hw d n hn hr (NoFork.of_len (fun s hs => by rw [hlen s hs, hd]))
      obtain ⟨c3, h4, _⟩ := find_sim d n hlive.ext r (twinC c) h2
      simp only at h1
      rw [h4] at h1
      injection h1 with h1; injection h1 with h1 _; subst h1
      exact h3
    cases op with
    | add d =>
      have hmem : d ∈ ss := by
        simp only [specStep] at hsame
        by_contra hne
        rw [if_neg hne] at hsame
        exact absurd (congrArg List.length hsame) (by simp)
      have key : ∃ r k, addBody d id fl (c, 0) = (r, (c, k)) ∧ ∀ x, r ≠ .ok (some x) := by
        show ∃ r k, FM.bind (getNodeF id) _ fl (c, 0) = (r, (c, k)) ∧ ∀ x, r ≠ .ok (some x)
        unfold FM.bind
        rcases hlive.getNodeF hn fl 0 with e | e
        · rw [e]; exact ⟨_, _, rfl, fun _ h => by cases h⟩
        · rw [e]
          obtain ⟨hk, hv⟩ := cfg d hop 1
          show ∃ r k, FM.bind (findF d n) _ fl (c, 1) = (r, (c, k)) ∧ ∀ x, r ≠ .ok (some x)
          unfold FM.bind
          cases e2 : findF d n fl (c, 1) with
          | mk r s =>
            rw [e2] at hk
            obtain ⟨c', k'⟩ := s
            simp only at hk
            subst hk
            cases r with
            | err x => exact ⟨_, _, rfl, fun _ h => by cases h⟩
            | panic => exact ⟨_, _, rfl, fun _ h => by cases h⟩
            | ok b =>
              have hb : b = true := (hv b _ e2).2 hmem
              subst hb
              exact ⟨.ok none, k', rfl, fun _ h => by cases h⟩
      obtain ⟨r, k, e, hne⟩ := key
      simp only [callF, Verif.Trie.Trie.addF, e]
      cases r with
      | ok o =>
        cases o with
        | none => exact h
        | some x => exact absurd rfl (hne x)
      | err x => exact h
      | panic => exact h
    | delete d =>
      have hmem : d ∉ ss := by
        simp only [specStep] at hsame
        intro hne
        rw [List.filter_eq_self] at hsame
        simpa using hsame d hne
      have hl : ¬ d.length ≠ el := by rw [hop]; exact fun h => h hel.symm
      have key : ∃ r k, deleteBody d id fl (c, 0) = (r, (c, k)) ∧ ∀ x, r = .ok x → x = Deleted.absent := by
        show ∃ r k, FM.bind (getNodeF id) _ fl (c, 0) = (r, (c, k)) ∧ ∀ x, r = .ok x → x = Deleted.absent
        unfold FM.bind
        rcases hlive.getNodeF hn fl 0 with e | e
        · rw [e]; exact ⟨_, _, rfl, fun _ h => by cases h⟩
        · rw [e]
          obtain ⟨hk, hv⟩ := cfg d hop 1
          show ∃ r k, FM.bind (findF d n) _ fl (c, 1) = (r, (c, k)) ∧ ∀ x, r = .ok x → x = Deleted.absent
          unfold FM.bind
          cases e2 : findF d n fl (c, 1) with
          | mk r s =>
            rw [e2] at hk
            obtain ⟨c', k'⟩ := s
            simp only at hk
            subst hk
            cases r with
            | err x => exact ⟨_, _, rfl, fun _ h => by cases h⟩
            | panic => exact ⟨_, _, rfl, fun _ h => by cases h⟩
            | ok b =>
              have hb : b = false := by
                cases b with
                | false => rfl
                | true => exact absurd ((hv _ _ e2).1 rfl) hmem
              subst hb
              exact ⟨.ok .absent, k', rfl, fun _ h => by injection h with h; exact h.symm⟩
      obtain ⟨r, k, e, hne⟩ := key
      simp only [callF, Trie.deleteF, if_neg hl, e]
      cases r with
      | ok o => rw [hne o rfl]; exact h
      | err x => exact h
      | panic => exact h
    | rootHash =>
      have hlen' : Room F c.next := Room.of_lt (hr.lt_next hw)
      have key : ∃ r c' k, hashBody H c.next id fl (c, 0) = (r, (c', k)) ∧ FInv H L ⟨some id, c', el⟩ ss := by
        have mk : ∀ c', Live c' → (∀ i, ¬ F i → c'.cache i = c.cache i) → Rep H c'.cache [] id (fun s => s ∈ ss) F v →
            FInv H L ⟨some id, c', el⟩ ss := by
          intro c' hl hf hr'
          refine ⟨hl, hl.twin_wf, hlen, hel, F, v, hr', fun i hi => ?_⟩
          by_contra hne
          have : c'.cache i ≠ none := hi
          rw [hf i hne] at this
          exact hne (hF i this)
        show ∃ r c' k, FM.bind (getNodeF id) _ fl (c, 0) = (r, (c', k)) ∧ _
        unfold FM.bind
        rcases hlive.getNodeF hn fl 0 with e | e
        · rw [e]; exact ⟨_, _, _, rfl, h⟩
        · rw [e]
          show ∃ r c' k, FM.bind (calculateHashF H c.next n) _ fl (c, 1) = (r, (c', k)) ∧ _
          unfold FM.bind
          have hk := calculateHashF_keeps (H := H) fl c.next n c 1 hlive hn hr hlen'
          cases e1 : calculateHashF H c.next n fl (c, 1) with
          | mk r s =>
            rw [e1] at hk
            obtain ⟨c1, k1⟩ := s
            have kept := mk c1 hk.live hk.frame hk.rep
            cases r with
            | err x => exact ⟨_, _, _, rfl, kept⟩
            | panic => exact ⟨_, _, _, rfl, kept⟩
            | ok n' =>
              have hrep := (hash_ok_rep hlive hn hr hlen' e1).1
              have hid : c1.cache id = some n := by rw [hk.root]; exact hn
              obtain ⟨c2, h2, hl2, hg2, hn2⟩ := hk.live.setNodeF hid n' fl k1
              have kept2 : FInv H L ⟨some id, c2, el⟩ ss := by
                refine mk c2 hl2 (fun i hi => ?_) (by rw [hg2]; exact hrep)
                rw [hg2, put_ne]
                · exact hk.frame i hi
                · rintro rfl; exact hi hr.mem_root
              show ∃ r c' k, FM.bind (setNodeF id n') _ fl (c1, k1) = (r, (c', k)) ∧ _
              unfold FM.bind
              cases e3 : setNodeF id n' fl (c1, k1) with
              | mk r3 s3 =>
                rw [e3] at h2
                simp only at h2
                subst h2
                cases r3 with
                | err x => exact ⟨_, _, _, rfl, kept2⟩
                | panic => exact ⟨_, _, _, rfl, kept2⟩
                | ok u => exact ⟨.ok n', c2, k1 + 1, rfl, kept2⟩
      obtain ⟨r, c', k, e, hi⟩ := key
      simp only [callF, Trie.rootHashF, e]
      cases r <;> exact hi

/-! ## C127 -/

theorem OfLen.head {op : TrieOp} {ops : List TrieOp} (h : OfLen L (op :: ops)) : OfLen L [op] :=
  fun x hx => h x (by rw [List.mem_singleton.1 hx]; exact List.mem_cons_self)

theorem OfLen.tail {op : TrieOp} {ops : List TrieOp} (h : OfLen L (op :: ops)) : OfLen L ops :=
  fun x hx => h x (List.mem_cons_of_mem _ hx)

theorem specOuts_cons (ss : List Bytes) (op : TrieOp) (ops : List TrieOp) :
    specOuts H ss (op :: ops) = specAnswer H ss op :: specOuts H (specStep ss op) ops := by
  cases op <;> rfl

/-- **C127**: whatever storage accesses fail, as long as every call returned an answer, the answers are those of the
set: a failed access is never hidden behind a wrong answer. -/
theorem C127_answers_right (H : Bytes → Bytes) (L : Nat) (hL : L < 2 ^ 32) (calls : List (TrieOp × (Nat → Bool)))
    (h : OfLen L (calls.map Prod.fst))
    (hok : ∀ r ∈ (runFaulty H Trie.new calls).1, ∃ o, r = Res.ok o) :
    (runFaulty H Trie.new calls).1 = (specOuts H [] (calls.map Prod.fst)).map Res.ok := by
  have key : ∀ (calls : List (TrieOp × (Nat → Bool))) (t : Trie) (ss : List Bytes), FInv H L t ss →
      OfLen L (calls.map Prod.fst) → (∀ r ∈ (runFaulty H t calls).1, ∃ o, r = Res.ok o) →
      (runFaulty H t calls).1 = (specOuts H ss (calls.map Prod.fst)).map Res.ok := by
    intro calls
    induction calls with
    | nil => intro _ _ _ _ _; rfl
    | cons c calls ih =>
      intro t ss hi hl hok
      obtain ⟨op, fl⟩ := c
      simp only [List.map_cons] at hl ⊢
      simp only [runFaulty, specOuts_cons, List.map_cons] at hok ⊢
      obtain ⟨o, ho⟩ := hok _ List.mem_cons_self
      rcases hi.outcome hL op hl.head fl with ⟨e, hi'⟩ | ⟨e, _⟩ | ⟨e, _⟩
      · rw [e, ih _ _ hi' hl.tail (fun r hr => hok r (List.mem_cons_of_mem _ hr))]
      · rw [e] at ho; cases ho
      · rw [e] at ho; cases ho
  exact key calls Trie.new [] FInv.new h hok

/-- An answer, wherever it stands among calls that all answered, is the right one although accesses may fail. -/
example : OfLen 1 (([(.add [7], fun _ => false), (.rootHash, fun k => k == 5)] : List (TrieOp × (Nat → Bool))).map
    Prod.fst) ∧ (∀ r ∈ (runFaulty toyHash Trie.new [(.add [7], fun _ => false), (.rootHash, fun k => k == 5)]).1,
      ∃ o, r = Res.ok o) := by
  refine ⟨by simp [OfLen], ?_⟩
  have hi : FInv toyHash 1 (callF toyHash (fun _ => false) Trie.new (.add [7])).2 [[7]] := by
    rcases (FInv.new (H := toyHash) (L := 1)).outcome (by decide) (.add [7]) (by simp [OfLen]) (fun _ => false) with
      ⟨_, h⟩ | ⟨_, _, h⟩ | ⟨_, _, _, h⟩
    · exact h
    · cases h
    · cases h
  intro r hr
  simp only [runFaulty, List.mem_cons, List.not_mem_nil, or_false] at hr
  rcases hr with rfl | rfl
  · exact ⟨_, rfl⟩
  · have hg := getNode_ok (allocSet_wf Cache.WF.new ⟨false, [7], none⟩) (i := 0) rfl
    have : callF toyHash (fun k => k == 5) (callF toyHash (fun _ => false) Trie.new (.add [7])).2 .rootHash =
        callF toyHash (fun k => k == 5) ⟨some 0, Cache.new.allocSet ⟨false, [7], none⟩, 1⟩ .rootHash := rfl
    rw [this]
    simp only [callF, Trie.rootHashF, hashBody]
    show ∃ o, (mapAnswer TrieOut.hash (Trie.stop _ (FM.bind (getNodeF 0) _ (fun k => k == 5) (_, 0)) _)).1 = Res.ok o
    unfold FM.bind
    simp only [getNodeF, hg]
    exact ⟨_, rfl⟩

/-! ## C128 -/

/-- The answers are those of a set that failed calls leave alone, and a call fails only if one of its storage accesses
can. -/
def AsIfAtomic (H : Bytes → Bytes) : List Bytes → List (TrieOp × (Nat → Bool)) → List (Res TrieError TrieOut) → Prop
  | ss, (op, fl) :: calls, r :: rs =>
    (∃ o, r = .ok o ∧ o = specAnswer H ss op ∧ AsIfAtomic H (specStep ss op) calls rs) ∨
    ((∀ o, r ≠ .ok o) ∧ (∃ k, fl k = true) ∧ AsIfAtomic H ss calls rs)
  | _, [], [] => True
  | _, _, _ => False

/-- Every call that fails is one that would not have changed the set. -/
def OnlyQueriesFail : List Bytes → List (TrieOp × (Nat → Bool)) → List (Res TrieError TrieOut) → Prop
  | ss, (op, _) :: calls, r :: rs =>
    (∃ o, r = .ok o ∧ OnlyQueriesFail (specStep ss op) calls rs) ∨
    ((∀ o, r ≠ .ok o) ∧ specStep ss op = ss ∧ OnlyQueriesFail ss calls rs)
  | _, _, _ => True

theorem FInv.fails_only_if {t : Trie} {ss} (h : FInv H L t ss) (hL : L < u32Lim) (op : TrieOp) (hop : OfLen L [op])
    (fl : Nat → Bool) (hf : ∀ o, (callF H fl t op).1 ≠ .ok o) : ∃ k, fl k = true := by
  rcases h.outcome hL op hop fl with ⟨e, _⟩ | ⟨_, hk⟩ | ⟨_, _, _, hk⟩
  · exact absurd e (hf _)
  · exact hk
  · exact ⟨0, hk⟩

/-- **C128**, the part that holds: a failed call that would not have changed the set (a root hash, the `add` of a
present element, the `delete` of an absent one) changes nothing: all later answers are right. Missing: a failed `add`
or `delete` that would have changed the set (`C128_violated`). -/
theorem C128_queries_partial (H : Bytes → Bytes) (L : Nat) (hL : L < 2 ^ 32) (calls : List (TrieOp × (Nat → Bool)))
    (h : OfLen L (calls.map Prod.fst)) (hq : OnlyQueriesFail [] calls (runFaulty H Trie.new calls).1) :
    AsIfAtomic H [] calls (runFaulty H Trie.new calls).1 := by
  have key : ∀ (calls : List (TrieOp × (Nat → Bool))) (t : Trie) (ss : List Bytes), FInv H L t ss →
      OfLen L (calls.map Prod.fst) → OnlyQueriesFail ss calls (runFaulty H t calls).1 →
      AsIfAtomic H ss calls (runFaulty H t calls).1 := by
    intro calls
    induction calls with
    | nil => intro _ _ _ _ _; trivial
    | cons c calls ih =>
      intro t ss hi hl hq
      obtain ⟨op, fl⟩ := c
      simp only [List.map_cons] at hl
      simp only [runFaulty] at hq ⊢
      have stay : (∀ o, (callF H fl t op).1 ≠ .ok o) → AsIfAtomic H ss ((op, fl) :: calls)
          ((callF H fl t op).1 :: (runFaulty H (callF H fl t op).2 calls).1) := by
        intro hne
        rcases hq with ⟨o, e, _⟩ | ⟨_, hs, hq⟩
        · exact absurd e (hne o)
        · exact Or.inr ⟨hne, hi.fails_only_if hL op hl.head fl hne, ih _ _ (hi.unchanged op hl.head fl hs) hl.tail hq⟩
      rcases hi.outcome hL op hl.head fl with ⟨e, hi'⟩ | ⟨e, _⟩ | ⟨e, _⟩
      · rcases hq with ⟨o, e', hq⟩ | ⟨hne, _⟩
        · exact Or.inl ⟨_, e, rfl, ih _ _ hi' hl.tail hq⟩
        · exact absurd e (hne _)
      · exact stay (fun o ho => by rw [e] at ho; cases ho)
      · exact stay (fun o ho => by rw [e] at ho; cases ho)
  exact key calls Trie.new [] FInv.new h hq

/-- **C128**, the same for a caller's view: if only `root_hash` calls meet a failing storage, every answer is right,
however many of them fail and wherever they stop. -/
theorem C128_root_hash_partial (H : Bytes → Bytes) (L : Nat) (hL : L < 2 ^ 32) (calls : List (TrieOp × (Nat → Bool)))
    (h : OfLen L (calls.map Prod.fst)) (hq : ∀ c ∈ calls, c.1 = .rootHash ∨ ∀ k, c.2 k = false) :
    AsIfAtomic H [] calls (runFaulty H Trie.new calls).1 := by
  have key : ∀ (calls : List (TrieOp × (Nat → Bool))) (t : Trie) (ss : List Bytes), FInv H L t ss →
      OfLen L (calls.map Prod.fst) → (∀ c ∈ calls, c.1 = .rootHash ∨ ∀ k, c.2 k = false) →
      AsIfAtomic H ss calls (runFaulty H t calls).1 := by
    intro calls
    induction calls with
    | nil => intro _ _ _ _ _; trivial
    | cons c calls ih =>
      intro t ss hi hl hq
      obtain ⟨op, fl⟩ := c
      simp only [List.map_cons] at hl
      simp only [runFaulty]
      have hq' : ∀ c ∈ calls, c.1 = .rootHash ∨ ∀ k, c.2 k = false := fun c hc => hq c (List.mem_cons_of_mem _ hc)
      have stay : (∀ o, (callF H fl t op).1 ≠ .ok o) → AsIfAtomic H ss ((op, fl) :: calls)
          ((callF H fl t op).1 :: (runFaulty H (callF H fl t op).2 calls).1) := by
        intro hne
        obtain ⟨k, hk⟩ := hi.fails_only_if hL op hl.head fl hne
        have hop : op = .rootHash := by
          rcases hq (op, fl) List.mem_cons_self with h | h
          · exact h
          · have := h k; simp only at this; rw [this] at hk; cases hk
        exact Or.inr ⟨hne, ⟨k, hk⟩, ih _ _ (hi.unchanged op hl.head fl (by rw [hop]; rfl)) hl.tail hq'⟩
      rcases hi.outcome hL op hl.head fl with ⟨e, hi'⟩ | ⟨e, _⟩ | ⟨e, _⟩
      · exact Or.inl ⟨_, e, rfl, ih _ _ hi' hl.tail hq'⟩
      · exact stay (fun o ho => by rw [e] at ho; cases ho)
      · exact stay (fun o ho => by rw [e] at ho; cases ho)
  exact key calls Trie.new [] FInv.new h hq

example : let calls : List (TrieOp × (Nat → Bool)) := [(.add [7, 7], fun _ => false), (.add [7, 8], fun _ => false),
      (.rootHash, fun k => k ≥ 3), (.rootHash, fun _ => false)]
    OfLen 2 (calls.map Prod.fst) ∧ ∀ c ∈ calls, c.1 = .rootHash ∨ ∀ k, c.2 k = false := by
  simp [OfLen]

section Witness

theorem storage_setNode (c : Cache) (i j : Nat) (n : Node) :
    (c.setNode i n).storage j = if j = i then some n.serialize else c.storage j := by
  have : n.serialize.isEmpty = false := by simpa using serialize_ne_nil n
  simp [Cache.setNode, storeNode, put, this]

theorem cache_setNode (c : Cache) (i j : Nat) (n : Node) :
    (c.setNode i n).cache j = if j = i then some n else c.cache j := rfl

theorem next_setNode (c : Cache) (i : Nat) (n : Node) : (c.setNode i n).next = c.next := rfl

theorem storage_deleteNode (c : Cache) (i j : Nat) :
    (c.deleteNode i).storage j = if j = i then none else c.storage j := by
  simp [Cache.deleteNode, storeNode, put]

theorem cache_deleteNode (c : Cache) (i j : Nat) : (c.deleteNode i).cache j = if j = i then none else c.cache j := rfl

theorem next_deleteNode (c : Cache) (i : Nat) : (c.deleteNode i).next = c.next := rfl

theorem storage_allocate (c : Cache) (j : Nat) : c.allocate.2.storage j = c.storage j := rfl

theorem cache_allocate (c : Cache) (j : Nat) :
    c.allocate.2.cache j = if j = c.next then some Node.default else c.cache j := rfl

theorem next_allocate (c : Cache) : c.allocate.2.next = c.next + 1 := rfl

theorem fst_allocate (c : Cache) : c.allocate.1 = c.next := rfl

theorem bind_apply {α β : Type} (m : FM α) (k : α → FM β) (fl : Nat → Bool) (s : FState) :
    (m >>= k) fl s = FM.bind m k fl s := rfl

theorem pure_apply {α : Type} (a : α) (fl : Nat → Bool) (s : FState) : (pure a : FM α) fl s = (.ok a, s) := rfl

end Witness

/-- **C128** is violated: of the elements `00`, `01` and `02` the third is added while one write fails. The call reports
the failure, but afterwards the trie, on a storage that works again, crashes when asked to add `00`, which it holds. -/
theorem C128_violated (H : Bytes → Bytes) :
    let calls : List (TrieOp × (Nat → Bool)) := [(.add [0, 0], fun _ => false), (.add [0, 1], fun _ => false),
      (.add [0, 2], fun k => k == 5), (.add [0, 0], fun _ => false)]
    (runFaulty H Trie.new calls).1 = [.ok (.flag true), .ok (.flag true), .err storageError, .panic] ∧
    ¬ AsIfAtomic H [] calls (runFaulty H Trie.new calls).1 := by
  intro calls
  have e : (runFaulty H Trie.new calls).1 = [.ok (.flag true), .ok (.flag true), .err storageError, .panic] := by
    simp [calls, runFaulty, callF, Verif.Trie.Trie.addF, Trie.new, addBody, bind_apply, FM.bind, getNodeF, Cache.getNode,
      storage_setNode, cache_setNode, next_setNode, storage_allocate, cache_allocate, next_allocate, fst_allocate,
      storage_deleteNode, cache_deleteNode, next_deleteNode, Cache.new, deserialize_serialize, findF, pure_apply, addF,
      addLeafF, FM.ofRes, diffIndex, allocateF, setNodeF, deleteNodeF, buildChainF, Trie.stop, mapAnswer, upd, noChildren,
      FM.panic, put]
  refine ⟨e, ?_⟩
  rw [e]
  simp [calls, AsIfAtomic, specStep]

/-- **C128** is violated silently: if the removal of the old root fails while a third element is added, the call reports
the failure, and the next root hash, on a storage that works again, is a wrong one: it does not depend on the elements. -/
theorem C128_violated_root_hash (H : Bytes → Bytes) :
    (runFaulty H Trie.new [(.add [0], fun _ => false), (.add [1], fun _ => false), (.add [2], fun k => k == 3),
      (.rootHash, fun _ => false)]).1 =
      [.ok (.flag true), .ok (.flag true), .err storageError, .ok (.hash (H [1]))] := by
  simp [runFaulty, callF, Verif.Trie.Trie.addF, Trie.new, addBody, bind_apply, FM.bind, getNodeF, Cache.getNode,
    storage_setNode, cache_setNode, next_setNode, storage_allocate, cache_allocate, next_allocate, fst_allocate,
    storage_deleteNode, cache_deleteNode, next_deleteNode, Cache.new, deserialize_serialize, findF, pure_apply, addF,
    addLeafF, FM.ofRes, diffIndex, allocateF, setNodeF, deleteNodeF, buildChainF, Trie.stop, mapAnswer, upd, noChildren,
    Trie.rootHashF, hashBody, calculateHashF, Node.isLeaf, put]

/-- With a hash function that tells the two strings apart the answer differs from that of the set. -/
theorem C128_violated_silently : ¬ AsIfAtomic toyHash [] [(.add [0], fun _ => false), (.add [1], fun _ => false),
    (.add [2], fun k => k == 3), (.rootHash, fun _ => false)]
    (runFaulty toyHash Trie.new [(.add [0], fun _ => false), (.add [1], fun _ => false), (.add [2], fun k => k == 3),
      (.rootHash, fun _ => false)]).1 := by
  rw [C128_violated_root_hash]
  have : specRoot toyHash [[1], [0]] ≠ toyHash [1] := by decide +kernel
  simp [AsIfAtomic, specStep, specAnswer, this.symm]

/-- **C128** is violated by `delete` as well: after a `delete` with a failed write the element can no longer be asked
for. -/
theorem C128_violated_delete (H : Bytes → Bytes) :
    (runFaulty H Trie.new [(.add [0], fun _ => false), (.add [1], fun _ => false), (.add [2], fun _ => false),
      (.delete [2], fun k => k == 3), (.delete [2], fun _ => false)]).1 =
      [.ok (.flag true), .ok (.flag true), .ok (.flag true), .err storageError, .panic] := by
  have hc : childList (upd (upd (upd (upd noChildren 1 (some 2)) 0 (some 1)) 2 (some 4)) 2 none) = [(0, 1), (1, 2)] := by
    decide +kernel
  have hu : ∀ ch b v x, upd ch b v x = if x = b then v else ch x := fun _ _ _ _ => rfl
  simp [runFaulty, callF, Verif.Trie.Trie.addF, Trie.new, addBody, bind_apply, FM.bind, getNodeF, Cache.getNode,
    storage_setNode, cache_setNode, next_setNode, storage_allocate, cache_allocate, next_allocate, fst_allocate,
    storage_deleteNode, cache_deleteNode, next_deleteNode, Cache.new, deserialize_serialize, findF, pure_apply, addF,
    addLeafF, FM.ofRes, diffIndex, allocateF, setNodeF, deleteNodeF, buildChainF, Trie.stop, mapAnswer, hu,
    show ∀ x, noChildren x = none from fun _ => rfl, Trie.deleteF, deleteBody, removeF, removeFinishF, keepF, hc,
    Node.isLeaf, put, FM.panic]

/-! ## C129 -/

/-- **C129** is violated: the first `add` panics if its write fails. -/
theorem C129_violated (H : Bytes → Bytes) (d : Bytes) (fl : Nat → Bool) (h : fl 0 = true) :
    (runFaulty H Trie.new [(.add d, fl)]).1 = [.panic] := by
  simp [runFaulty, callF, Verif.Trie.Trie.addF, Trie.new, setNodeF, h, mapAnswer]

/-- After that the trie is neither empty nor usable: on a storage that works again, every call fails. -/
theorem C129_violated_after (H : Bytes → Bytes) (d : Bytes) (fl : Nat → Bool) (h : fl 0 = true) (op : TrieOp) :
    ∃ e, (runFaulty H Trie.new [(.add d, fl), (op, fun _ => false)]).1 = [.panic, .err e] := by
  cases op with
  | add x =>
    simp [runFaulty, callF, Verif.Trie.Trie.addF, Trie.new, setNodeF, h, mapAnswer, addBody, bind_apply, FM.bind, getNodeF,
      Cache.getNode, Cache.new, Cache.allocate, Trie.stop]
  | delete x =>
    by_cases hx : x = []
    · simp [runFaulty, callF, Verif.Trie.Trie.addF, Trie.new, setNodeF, h, mapAnswer, deleteBody, bind_apply, FM.bind,
        getNodeF, Cache.getNode, Cache.new, Cache.allocate, Trie.stop, Trie.deleteF, hx]
    · simp [runFaulty, callF, Verif.Trie.Trie.addF, Trie.new, setNodeF, h, mapAnswer, Cache.new, Cache.allocate, Trie.deleteF,
        hx]
  | rootHash =>
    simp [runFaulty, callF, Verif.Trie.Trie.addF, Trie.new, setNodeF, h, mapAnswer, hashBody, bind_apply, FM.bind, getNodeF,
      Cache.getNode, Cache.new, Cache.allocate, Trie.stop, Trie.rootHashF]

/-- **C129**, the part that holds: after any history without a failed call that would have changed the set, a call whose
storage fails reports the storage failure, unless it is the `add` to an empty trie. Missing: that `add` panics. -/
theorem C129_reported_partial (H : Bytes → Bytes) (L : Nat) (hL : L < 2 ^ 32) (calls : List (TrieOp × (Nat → Bool)))
    (op : TrieOp) (fl : Nat → Bool) (h : OfLen L (op :: calls.map Prod.fst))
    (hq : ∀ c ∈ calls, c.1 = .rootHash ∨ ∀ k, c.2 k = false)
    (hne : (∃ d, op = .add d) → specSet [] (calls.map Prod.fst) ≠ []) :
    (callF H fl (runFaulty H Trie.new calls).2 op).1 = .err storageError ∨
    (callF H fl (runFaulty H Trie.new calls).2 op).1 = .ok (specAnswer H (specSet [] (calls.map Prod.fst)) op) := by
  have key : ∀ (calls : List (TrieOp × (Nat → Bool))) (t : Trie) (ss : List Bytes), FInv H L t ss →
      OfLen L (calls.map Prod.fst) → (∀ c ∈ calls, c.1 = .rootHash ∨ ∀ k, c.2 k = false) →
      FInv H L (runFaulty H t calls).2 (specSet ss (calls.map Prod.fst)) := by
    intro calls
    induction calls with
    | nil => intro _ _ hi _ _; exact hi
    | cons c calls ih =>
      intro t ss hi hl hq
      obtain ⟨op, fl⟩ := c
      simp only [List.map_cons] at hl ⊢
      simp only [runFaulty, specSet]
      refine ih _ _ ?_ hl.tail (fun c hc => hq c (List.mem_cons_of_mem _ hc))
      have stay : (∃ k, fl k = true) → FInv H L (callF H fl t op).2 (specStep ss op) := by
        rintro ⟨k, hk⟩
        have hop : op = .rootHash := by
          rcases hq (op, fl) List.mem_cons_self with h | h
          · exact h
          · have := h k; simp only at this; rw [this] at hk; cases hk
        have := hi.unchanged op hl.head fl (by rw [hop]; rfl)
        rw [hop] at this ⊢; exact this
      rcases hi.outcome hL op hl.head fl with ⟨_, hi'⟩ | ⟨_, hk⟩ | ⟨_, _, _, hk⟩
      · exact hi'
      · exact stay hk
      · exact stay ⟨0, hk⟩
  rcases (key calls Trie.new [] FInv.new h.tail hq).outcome hL op h.head fl with ⟨e, _⟩ | ⟨e, _⟩ | ⟨_, h1, h2, _⟩
  · exact Or.inr e
  · exact Or.inl e
  · exact absurd h2 (hne h1)

example : let calls : List (TrieOp × (Nat → Bool)) := [(.add [7, 7], fun _ => false), (.rootHash, fun _ => true)]
    OfLen 2 (.add [7, 9] :: calls.map Prod.fst) ∧ (∀ c ∈ calls, c.1 = .rootHash ∨ ∀ k, c.2 k = false) ∧
    specSet [] (calls.map Prod.fst) ≠ [] := by
  simp [OfLen, specSet, specStep]

/-- A case of `C129_violated` and `C129_violated_after`: storage that fails at every access. -/
example (H : Bytes → Bytes) : (runFaulty H Trie.new [(.add [1, 2], fun _ => true)]).1 = [.panic] ∧
    ∃ e, (runFaulty H Trie.new [(.add [1, 2], fun _ => true), (.rootHash, fun _ => false)]).1 = [.panic, .err e] :=
  ⟨C129_violated H _ _ rfl, C129_violated_after H _ _ rfl _⟩

/-- A case of `C128_queries_partial`: an addition that succeeds. -/
example (H : Bytes → Bytes) (h : OnlyQueriesFail [] [(.add [7, 7], fun _ => false), (.rootHash, fun k => k ≥ 3), (.rootHash, fun _ => false)]
      (runFaulty H Trie.new [(.add [7, 7], fun _ => false), (.rootHash, fun k => k ≥ 3), (.rootHash, fun _ => false)]).1) :
    AsIfAtomic H [] [(.add [7, 7], fun _ => false), (.rootHash, fun k => k ≥ 3), (.rootHash, fun _ => false)]
      (runFaulty H Trie.new [(.add [7, 7], fun _ => false), (.rootHash, fun k => k ≥ 3), (.rootHash, fun _ => false)]).1 :=
  C128_queries_partial H 2 (by decide) _ (by simp [OfLen]) h

/-- Its hypothesis is met: an addition that succeeds, a root hash that may fail and one that does not. -/
example (H : Bytes → Bytes) : OnlyQueriesFail [] [(.add [7, 7], fun _ => false), (.rootHash, fun k => k ≥ 3), (.rootHash, fun _ => false)]
      (runFaulty H Trie.new [(.add [7, 7], fun _ => false), (.rootHash, fun k => k ≥ 3), (.rootHash, fun _ => false)]).1 := by
  have h := C128_root_hash_partial H 2 (by decide) [(.add [7, 7], fun _ => false), (.rootHash, fun k => k ≥ 3),
    (.rootHash, fun _ => false)] (by simp [OfLen]) (by simp)
  rcases h with ⟨o, e, _, h⟩ | ⟨_, ⟨k, hk⟩, _⟩
  · refine .inl ⟨o, e, ?_⟩
    rcases h with ⟨o, e, _, h⟩ | ⟨hne, _, h⟩
    · refine .inl ⟨o, e, ?_⟩
      rcases h with ⟨o, e, _⟩ | ⟨_, ⟨k, hk⟩, _⟩
      · exact .inl ⟨o, e, trivial⟩
      · cases hk
    · refine .inr ⟨hne, rfl, ?_⟩
      rcases h with ⟨o, e, _⟩ | ⟨_, ⟨k, hk⟩, _⟩
      · exact .inl ⟨o, e, trivial⟩
      · cases hk
  · cases hk

end Verif.Props
