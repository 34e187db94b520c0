import Verif.Props.CodecRead
import Verif.Props.Codec
/-!
# C118, C120, C121: what is read is well formed; the names and the order of what is written
-/

namespace Verif.Props
open Verif Verif.Msgpack Verif.Codec Verif.Tx Verif.Multisig Verif.HashId

/-! ## Sizes of what is read -/

theorem fitsList_mem {l : List MP} (h : FitsList l) {v : MP} (hv : v ∈ l) : v.Fits := by
  induction l with
  | nil => cases hv
  | cons a l ih =>
    rw [FitsList] at h
    rcases List.mem_cons.1 hv with rfl | hv
    · exact h.1
    · exact ih h.2 hv

theorem mapPairs_mem : ∀ {kvs : List MP} {e : MP × MP}, e ∈ mapPairs kvs → e.1 ∈ kvs ∧ e.2 ∈ kvs
  | [], _, h => by cases h
  | [_], _, h => by cases h
  | k :: v :: rest, e, h => by
    rw [mapPairs] at h
    rcases List.mem_cons.1 h with rfl | h
    · simp
    · have := mapPairs_mem h
      simp [this.1, this.2]

theorem given_fits {kvs : List MP} {pos : Option Nat} {name : List Char} {v : MP} (hf : FitsList kvs)
    (h : Given kvs pos name v) : v.Fits := by
  obtain ⟨a, k, b, e, _, _⟩ := h
  exact fitsList_mem hf (mapPairs_mem (e := (k, v)) (by rw [e]; simp)).2

theorem required_fits {kvs : List MP} {pos : Option Nat} {name : List Char} {P : MP → Prop} {Q : Prop} (hf : FitsList kvs)
    (h : Required kvs pos name P) (hq : ∀ v : MP, v.Fits → P v → Q) : Q := by
  obtain ⟨v, h1, h2⟩ := h
  exact hq v (given_fits hf h1) h2

theorem optional_fits {kvs : List MP} {pos : Option Nat} {name : List Char} {D Q : Prop} {P : MP → Prop} (hf : FitsList kvs)
    (h : Optional kvs pos name D P) (hd : D → Q) (hq : ∀ v : MP, v.Fits → P v → Q) : Q := by
  rcases h with ⟨_, h⟩ | ⟨v, h1, h2⟩
  · exact hd h
  · exact hq v (given_fits hf h1) h2

theorem isText_len {s : Bytes} {v : MP} (hv : v.Fits) (h : IsText s v) : s.length < u32Lim := by
  rcases h with rfl | rfl <;> simpa [MP.Fits] using hv

theorem isBytes_len {s : Bytes} {v : MP} (hv : v.Fits) (h : IsBytes s v) : s.length < u32Lim := by
  rw [IsBytes] at h
  subst h
  rw [MP.Fits] at hv
  simpa using hv.1

theorem isList_len {α : Type} {P : α → MP → Prop} {xs : List α} {v : MP} {Q : α → Prop} (hv : v.Fits)
    (h : IsList P xs v) (hq : ∀ x w, w.Fits → P x w → Q x) : xs.length < u32Lim ∧ ∀ x ∈ xs, Q x := by
  obtain ⟨vs, rfl, h⟩ := h
  rw [MP.Fits] at hv
  refine ⟨by rw [h.length_eq]; exact hv.1, ?_⟩
  have hl := hv.2
  clear hv
  induction h with
  | nil => simp
  | @cons x w xs ws hx _ ih =>
    rw [FitsList] at hl
    intro y hy
    rcases List.mem_cons.1 hy with rfl | hy
    · exact hq _ _ hl.1 hx
    · exact ih hl.2 y hy

theorem readsHeader_typed {kvs : List MP} {h : Header} (hf : FitsList kvs) (hr : ReadsHeader (IsArray 32) kvs h) :
    HeaderTyped h := by
  obtain ⟨a1, a2, a3, a4, a5, a6, a7, a8, a9, a10⟩ := hr
  have arr : ∀ {b : Bytes} {i : Option Nat} {n : List Char}, Optional kvs i n (b = List.replicate 32 0) (IsArray 32 b) → b.length = 32 :=
    fun h => optional_fits hf h (fun e => by rw [e]; exact List.length_replicate) (fun _ _ h => h.2)
  have num : ∀ {x : Nat} {i : Option Nat} {n : List Char}, Optional kvs i n (x = 0) (IsUint (2 ^ 64) x) → x < u64Lim :=
    fun h => optional_fits hf h (fun e => by rw [e]; decide) (fun _ _ h => h.2)
  exact ⟨arr a1, num a2, num a3, num a4,
    optional_fits hf a5 (fun e => by rw [e]; decide) (fun _ hv h => isBytes_len hv h),
    optional_fits hf a6 (fun e => by rw [e]; decide) (fun _ hv h => isText_len hv h.1), arr a7, arr a8, arr a9, arr a10,
    optional_fits hf a6 (fun e => by rw [e]; rfl) (fun _ _ h => (utf8_iff _).2 h.2)⟩

theorem isAssetParams_typed {p : AssetParams} {v : MP} (hv : v.Fits) (h : IsAssetParams (IsArray 32) p v) :
    AssetParamsTyped p := by
  rcases h with ⟨a, b, c, d, e, f, g, h, i, j, k, rfl, a1, a2, a3, a4, a5, a6, a7, a8, a9, a10, a11⟩ |
    ⟨kvs, rfl, _, a1, a2, a3, a4, a5, a6, a7, a8, a9, a10, a11⟩
  · rw [MP.Fits] at hv
    have hm := fun w => fitsList_mem (v := w) hv.2
    exact ⟨a1.2, a2.2, isText_len (hm d (by simp)) a4.1, isText_len (hm e (by simp)) a5.1,
      isText_len (hm f (by simp)) a6.1, a7.2, a8.2, a9.2, a10.2, a11.2, (utf8_iff _).2 a4.2, (utf8_iff _).2 a5.2,
      (utf8_iff _).2 a6.2⟩
  · rw [MP.Fits] at hv
    have arr : ∀ {b : Bytes} {i : Option Nat} {n : List Char}, Required kvs i n (IsArray 32 b) → b.length = 32 :=
      fun h => required_fits hv.2.2 h (fun _ _ h => h.2)
    have num : ∀ {x l : Nat} {i : Option Nat} {n : List Char}, Required kvs i n (IsUint l x) → x < l :=
      fun h => required_fits hv.2.2 h (fun _ _ h => h.2)
    have len : ∀ {x : Bytes} {i : Option Nat} {n : List Char}, Required kvs i n (IsString x) → x.length < u32Lim :=
      fun h => required_fits hv.2.2 h (fun _ hv h => isText_len hv h.1)
    have txt : ∀ {x : Bytes} {i : Option Nat} {n : List Char}, Required kvs i n (IsString x) → utf8 x = true :=
      fun h => required_fits hv.2.2 h (fun _ _ h => (utf8_iff _).2 h.2)
    exact ⟨num a1, num a2, len a4, len a5, len a6, arr a7, arr a8, arr a9, arr a10, arr a11, txt a4, txt a5, txt a6⟩

theorem isSchema_typed {s : Teal.Schema} {v : MP} (h : IsSchema s v) : s.numUint < u64Lim ∧ s.numByteSlice < u64Lim := by
  rcases h with ⟨a, b, _, h1, h2⟩ | ⟨kvs, _, _, ⟨_, _, h1⟩, ⟨_, _, h2⟩⟩
  · exact ⟨h1.2, h2.2⟩
  · exact ⟨h1.2, h2.2⟩

theorem readsFields_typed {L : Lib} {kvs : List MP} {f : Fields} (hf : FitsList kvs)
    (hr : ReadsFields L (IsArray 32) kvs f) : FieldsTyped L f := by
  have arr : ∀ {b : Bytes} {i : Option Nat} {n : List Char}, Required kvs i n (IsArray 32 b) → b.length = 32 :=
    fun h => required_fits hf h (fun _ _ h => h.2)
  have num : ∀ {x l : Nat} {i : Option Nat} {n : List Char}, Required kvs i n (IsUint l x) → x < l :=
    fun h => required_fits hf h (fun _ _ h => h.2)
  have bs : ∀ {x : Bytes} {i : Option Nat} {n : List Char}, Required kvs i n (IsBytes x) → x.length < u32Lim :=
    fun h => required_fits hf h (fun _ hv h => isBytes_len hv h)
  cases f with
  | keyreg f =>
    obtain ⟨_, a1, a2, a3, a4, a5, a6⟩ := hr
    have h1 := required_fits (Q := f.votePk.length = 32 ∧ L.validPk f.votePk = true) hf a1 (fun _ _ h => h.2)
    exact ⟨h1.1, h1.2, arr a2, num a3, num a4, num a5⟩
  | payment f =>
    obtain ⟨_, a1, a2, a3⟩ := hr
    refine ⟨optional_fits hf a1 (fun e => by rw [e]; exact List.length_replicate) (fun _ _ h => h.2),
      optional_fits hf a2 (fun e => by rw [e]; decide) (fun _ _ h => h.2), fun a ha => ?_⟩
    rw [ha] at a3
    exact optional_fits hf a3 (fun e => nomatch e) (fun _ _ h => h.2.2)
  | assetConfig f =>
    obtain ⟨_, a1, a2⟩ := hr
    exact ⟨num a1, required_fits hf a2 (fun _ hv h => isAssetParams_typed hv h)⟩
  | assetTransfer f =>
    obtain ⟨_, a1, a2, a3, a4, a5⟩ := hr
    exact ⟨num a1, num a2, arr a3, arr a4, arr a5⟩
  | assetFreeze f =>
    obtain ⟨_, a1, a2, a3⟩ := hr
    exact ⟨arr a1, num a2⟩
  | appCall f =>
    obtain ⟨_, a1, a2, a3, a4, a5, a6, a7, a8, a9, a10, a11⟩ := hr
    exact ⟨num a1, required_fits hf a3 (fun _ hv h => isList_len hv h (fun _ _ => isBytes_len)),
      required_fits hf a4 (fun _ hv h => isList_len hv h (fun _ _ _ h => h.2)),
      required_fits hf a5 (fun _ hv h => isList_len hv h (fun _ _ _ h => h.2)),
      required_fits hf a6 (fun _ hv h => isList_len hv h (fun _ _ _ h => h.2)),
      required_fits hf a7 (fun _ _ h => isSchema_typed h), required_fits hf a8 (fun _ _ h => isSchema_typed h),
      bs a9, bs a10, num a11⟩
  | compactCert f =>
    obtain ⟨_, a1, _⟩ := hr
    exact num (l := 2 ^ 64) a1

theorem readsTx_typed {L : Lib} {v : MP} {t : Transaction} (hv : v.Fits) (h : ReadsTx L (IsArray 32) t v) :
    TxTyped L t := by
  obtain ⟨kvs, rfl, _, h1, h2⟩ := h
  rw [MP.Fits] at hv
  exact ⟨readsHeader_typed hv.2.2 h1, readsFields_typed hv.2.2 h2⟩

theorem isMsig_typed {L : Lib} {m : Msig} {v : MP} (hv : v.Fits) (h : IsMsig L m v) : MsigTyped L m := by
  have key : ∀ w : MP, w.Fits → IsList (IsSubsig L) m.subsigs w → MsigTyped L m := by
    intro w hw h
    have := isList_len (Q := fun s => (s.key.length = 32 ∧ L.validPk s.key = true) ∧
        ∀ g, s.sig = some g → g.length = 64 ∧ L.validSig g = true) hw h (by
      rintro s u _ (⟨a, b, _, h1, h2⟩ | ⟨kvs, _, _, ⟨_, _, h1⟩, h2⟩)
      · refine ⟨h1.2, fun g hg => ?_⟩
        rw [hg] at h2
        exact ⟨h2.2.1.2, h2.2.2⟩
      · refine ⟨h1.2, fun g hg => ?_⟩
        rw [hg] at h2
        rcases h2 with ⟨_, e⟩ | ⟨_, _, h2⟩
        · cases e
        · exact ⟨h2.2.1.2, h2.2.2⟩)
    exact ⟨this.1, fun s hs => (this.2 s hs).1, fun s hs => (this.2 s hs).2⟩
  rcases h with ⟨a, b, c, rfl, _, _, h⟩ | ⟨kvs, rfl, _, _, _, h⟩
  · rw [MP.Fits] at hv
    exact key c (fitsList_mem hv.2 (by simp)) h
  · rw [MP.Fits] at hv
    exact required_fits hv.2.2 h key

theorem isLsig_typed {L : Lib} {l : LogicSig} {v : MP} (hv : v.Fits) (h : IsLsig L l v) : LsigTyped L l := by
  rcases h with ⟨a, b, c, d, rfl, h1, h2, h3, h4⟩ | ⟨kvs, rfl, _, h1, h2, h3, h4⟩
  · rw [MP.Fits] at hv
    have hm := fun w => fitsList_mem (v := w) hv.2
    exact ⟨isBytes_len (hm a (by simp)) h1, ⟨h2.1.2, h2.2⟩, isMsig_typed (hm c (by simp)) h3,
      isList_len (hm d (by simp)) h4 (fun _ _ => isBytes_len)⟩
  · rw [MP.Fits] at hv
    have hf := hv.2.2
    exact ⟨required_fits hf h1 (fun _ => isBytes_len),
      required_fits hf h2 (fun _ _ h => ⟨h.1.2, h.2⟩), required_fits hf h3 (fun _ => isMsig_typed),
      required_fits hf h4 (fun _ hv h => isList_len hv h (fun _ _ => isBytes_len))⟩

/-- C118: whatever the bytes, a transaction that is read has fields of the sizes and ranges of their types and only keys
the library accepts. -/
theorem C118_well_formed (L : Lib) (bs : Bytes) (t : Transaction) (h : decodeTx L bs = some t) : TxTyped L t := by
  obtain ⟨v, p, r, _, hp, hr⟩ := (C118_reads L bs t).1 h
  exact readsTx_typed (repr_fits hp) hr

/-- C118: the same for signed transactions and all their signatures. -/
theorem C118_signed_well_formed (L : Lib) (bs : Bytes) (s : SignedTx) (h : decodeStx L bs = some s) : StxTyped L s := by
  have auth : ∀ {w : MP}, IsAuth L s.authAddr w → s.authAddr.length = 32 := by
    rintro w (h | h)
    · exact h.2
    · exact h.2.2
  obtain ⟨v, p, r, _, hp, ⟨a, b, c, d, e, rfl, h1, h2, h3, h4, h5⟩ | ⟨kvs, rfl, _, h1, h2, h3, h4, h5⟩⟩ :=
    (C118_reads_signed L bs s).1 h
  rotate_left
  · have hv := repr_fits hp
    rw [MP.Fits] at hv
    have hf := hv.2.2
    refine ⟨required_fits hf h1 (fun _ _ h => ⟨h.1.2, h.2⟩), fun m e => ?_, fun l e => ?_,
      required_fits hf h4 (fun _ => readsTx_typed), ?_⟩
    · rw [e] at h2; exact optional_fits hf h2 (fun e => nomatch e) (fun _ hv h => isMsig_typed hv h.2)
    · rw [e] at h3; exact optional_fits hf h3 (fun e => nomatch e) (fun _ hv h => isLsig_typed hv h.2)
    · exact optional_fits hf h5 (fun e => by rw [e]; exact List.length_replicate) (fun _ _ h => auth h)
  have hv := repr_fits hp
  rw [MP.Fits] at hv
  have hm := fun w => fitsList_mem (v := w) hv.2
  refine ⟨⟨h1.1.2, h1.2⟩, fun m e => ?_, fun l e => ?_, readsTx_typed (hm d (by simp)) h4, ?_⟩
  · rw [e] at h2; exact isMsig_typed (hm b (by simp)) h2.2
  · rw [e] at h3; exact isLsig_typed (hm c (by simp)) h3.2
  · rcases h5 with ⟨_, e⟩ | ⟨w, _, h⟩
    · rw [e]; exact List.length_replicate
    · exact auth h

/-! ## Duplicate and missing fields -/

theorem twice_not {kvs : List MP} {pos : Option Nat} {name : List Char} {a b c : List (MP × MP)} {e e' : MP × MP}
    (hk : mapPairs kvs = a ++ e :: (b ++ e' :: c)) (he : IsKey pos name e.1) (he' : IsKey pos name e'.1) :
    ¬ Absent kvs pos name ∧ ∀ v, ¬ Given kvs pos name v := by
  refine ⟨fun h => h e (by rw [hk]; simp) he, fun v h => ?_⟩
  have hl := congrArg List.length ((filter_key_one pos name kvs v).2 h)
  rw [hk] at hl
  simp only [List.filter_append, List.filter_cons, (isKey_iff _ _ _).2 he, (isKey_iff _ _ _).2 he', if_true,
    List.length_map, List.length_append, List.length_cons, List.length_nil] at hl
  omega

/-- C118: a map with two entries for the type or for one of the common fields is refused. -/
theorem C118_twice_refused (L : Lib) (kvs : List MP) (name : List Char)
    (hn : name ∈ [['t', 'y', 'p', 'e'], ['s', 'n', 'd'], ['f', 'e', 'e'], ['f', 'v'], ['l', 'v'], ['n', 'o', 't', 'e'],
      ['g', 'e', 'n'], ['g', 'h'], ['g', 'r', 'p'], ['l', 'x'], ['r', 'e', 'k', 'e', 'y']])
    (a b c : List (MP × MP)) (e e' : MP × MP) (hk : mapPairs kvs = a ++ e :: (b ++ e' :: c))
    (he : IsText (textBytes name) e.1) (he' : IsText (textBytes name) e'.1) : decTx L (.map kvs) = none := by
  cases hd : decTx L (.map kvs) with
  | none => rfl
  | some t =>
    exfalso
    obtain ⟨kvs', e0, _, hh, hf⟩ := (decTx_iff L _ t).1 hd
    injection e0 with e0
    subst e0
    obtain ⟨h1, h2⟩ := twice_not (pos := none) hk (.inl he) (.inl he')
    have ht : Required kvs none ['t', 'y', 'p', 'e'] (fun _ => True) := by
      cases hc : t.fields <;> rw [hc] at hf <;> obtain ⟨⟨v, h, _⟩, _⟩ := hf <;> exact ⟨v, h, trivial⟩
    have no : ∀ {D : Prop} {P : MP → Prop}, ¬ Optional kvs none name D P := by
      rintro D P (⟨h, _⟩ | ⟨v, h, _⟩)
      · exact h1 h
      · exact h2 v h
    obtain ⟨a1, a2, a3, a4, a5, a6, a7, a8, a9, a10⟩ := hh
    simp only [List.mem_cons, List.not_mem_nil, or_false] at hn
    rcases hn with rfl | rfl | rfl | rfl | rfl | rfl | rfl | rfl | rfl | rfl | rfl
    · obtain ⟨v, h, _⟩ := ht
      exact h2 v h
    · exact no a1
    · exact no a2
    · exact no a3
    · exact no a4
    · exact no a5
    · exact no a6
    · exact no a7
    · exact no a8
    · exact no a9
    · exact no a10

/-- A certificate of a round, in a map with an unknown entry, in an order the writer does not use. -/
def toyWire : List MP :=
  [.str (textBytes ['c', 'e', 'r', 't', '_', 't', 'y', 'p', 'e']), .str (textBytes ['B', 'a', 's', 'i', 'c']),
   .str (textBytes ['x']), .float [0, 0, 0, 0],
   .bin (textBytes ['t', 'y', 'p', 'e']), .str (textBytes ['c', 'e', 'r', 't']),
   .str (textBytes ['c', 'e', 'r', 't', '_', 'r', 'o', 'u', 'n', 'd']), .uint 256]

example : decodeTx sizesOnly (enc (.map toyWire)) = some ⟨Header.default, .compactCert ⟨256⟩⟩ := by
  refine (C118_reads _ _ _).2 ⟨.map toyWire, _, [], (List.append_nil _).symm, repr_enc _ ?_, ?_⟩
  · simp [MP.Fits, FitsList, toyWire, textBytes]
  · exact (decTx_iff _ _ _).1 (by decide +kernel)

example : decTx sizesOnly (.map (.str (textBytes ['t', 'y', 'p', 'e']) :: .str (textBytes ['p', 'a', 'y']) :: toyWire)) = none :=
  C118_twice_refused _ _ ['t', 'y', 'p', 'e'] (by simp) [] [_, _] [_] (_, _) (_, _) rfl (Or.inl rfl) (Or.inr rfl)

/-- **C118**, keys: a transaction in a map with a key that is neither a text nor a position is refused, although the
common fields are looked up by name only. -/
theorem C118_other_keys_refused (L : Lib) (kvs : List MP) (e : MP × MP) (he : e ∈ mapPairs kvs)
    (h1 : ∀ s, ¬ IsText s e.1) (h2 : ∀ n, e.1 ≠ .uint n) : decTx L (.map kvs) = none := by
  cases hd : decTx L (.map kvs) with
  | none => rfl
  | some t =>
    obtain ⟨kvs', e0, hk, -⟩ := (decTx_iff L _ t).1 hd
    injection e0 with e0
    subst e0
    rcases hk e he with ⟨s, hs⟩ | ⟨n, hn⟩
    · exact absurd hs (h1 s)
    · exact absurd hn (h2 n)

/-- **C118**, positions: the fields of the type may be given under their positions; a payment of every amount is read from
a map that does not name the amount. -/
theorem C118_positions (L : Lib) (n : Nat) (h : n < 2 ^ 64) :
    decTx L (.map [.uint 1, .uint n, .str (textBytes ['t', 'y', 'p', 'e']), .str (textBytes ['p', 'a', 'y'])]) =
      some ⟨Header.default, .payment ⟨List.replicate 32 0, n, none⟩⟩ := by
  have hn : decUint u64Lim (.uint n) = some n := if_pos h
  rw [decTx, decTxWith]
  generalize hk : [MP.uint 1, MP.uint n, MP.str (textBytes ['t', 'y', 'p', 'e']), MP.str (textBytes ['p', 'a', 'y'])] = kvs
  have h1 : checkKeys kvs = some () := by subst hk; rfl
  have h2 : decHeader decAddr kvs = some Header.default := by subst hk; rfl
  have h3 : decPayment decAddr kvs = some ⟨zero32, n, none⟩ := by
    have a1 : opt (some 0) .rcv decAddr zero32 kvs = some zero32 := by subst hk; rfl
    have a2 : opt (some 1) .amt (decUint u64Lim) 0 kvs = some n := by subst hk; exact hn
    have a3 : opt (some 2) .close (decOpt decAddr) none kvs = some none := by subst hk; rfl
    rw [decPayment, a1, a2, a3]
    rfl
  have h4 : req none .txType decStr kvs = some (asciiBytes ['p', 'a', 'y']) := by subst hk; rfl
  have h5 : decFields L decAddr kvs = some (.payment ⟨zero32, n, none⟩) := by
    rw [decFields, h4]
    simp only [Option.bind_eq_bind, Option.bind_some]
    rw [if_neg (by decide), if_pos trivial, h3]
    rfl
  rw [h1, h2, h5]
  rfl

/-! ## C120: what is written -/

/-- Addresses are written as byte strings. -/
def IsBin (b : Bytes) (v : MP) : Prop := v = .bin b

theorem anyAddr_iff (v : MP) (b : Bytes) : anyAddr v = some b ↔ IsBin b v := by
  cases v <;> simp [anyAddr, IsBin]

/-- The names of the fields of each type of transaction. -/
def wireNames : Fields → List (List Char)
  | .keyreg _ => [['v', 'o', 't', 'e', '_', 'p', 'k'], ['s', 'e', 'l', 'e', 'c', 't', 'i', 'o', 'n', '_', 'p', 'k'],
      ['v', 'o', 't', 'e', '_', 'f', 'i', 'r', 's', 't'], ['v', 'o', 't', 'e', '_', 'l', 'a', 's', 't'],
      ['v', 'o', 't', 'e', '_', 'k', 'e', 'y', '_', 'd', 'i', 'l', 'u', 't', 'i', 'o', 'n'],
      ['n', 'o', 'n', 'p', 'a', 'r', 't', 'i', 'c', 'i', 'p', 'a', 't', 'i', 'o', 'n']]
  | .payment _ => [['r', 'c', 'v'], ['a', 'm', 't'], ['c', 'l', 'o', 's', 'e']]
  | .assetConfig _ => [['c', 'o', 'n', 'f', 'i', 'g', '_', 'a', 's', 's', 'e', 't'],
      ['a', 's', 's', 'e', 't', '_', 'p', 'a', 'r', 'a', 'm', 's']]
  | .assetTransfer _ => [['t', 'r', 'a', 'n', 's', 'f', 'e', 'r', '_', 'a', 's', 's', 'e', 't'],
      ['a', 's', 's', 'e', 't', '_', 'a', 'm', 'o', 'u', 'n', 't'], ['a', 's', 's', 'e', 't', '_', 's', 'e', 'n', 'd', 'e', 'r'],
      ['a', 's', 's', 'e', 't', '_', 'r', 'e', 'c', 'e', 'i', 'v', 'e', 'r'],
      ['a', 's', 's', 'e', 't', '_', 'c', 'l', 'o', 's', 'e', '_', 't', 'o']]
  | .assetFreeze _ => [['f', 'r', 'e', 'e', 'z', 'e', '_', 'a', 'c', 'c', 'o', 'u', 'n', 't'],
      ['f', 'r', 'e', 'e', 'z', 'e', '_', 'a', 's', 's', 'e', 't'], ['a', 's', 's', 'e', 't', '_', 'f', 'r', 'o', 'z', 'e', 'n']]
  | .appCall _ => [['a', 'p', 'p', 'l', 'i', 'c', 'a', 't', 'i', 'o', 'n', '_', 'i', 'd'],
      ['o', 'n', '_', 'c', 'o', 'm', 'p', 'l', 'e', 't', 'i', 'o', 'n'],
      ['a', 'p', 'p', 'l', 'i', 'c', 'a', 't', 'i', 'o', 'n', '_', 'a', 'r', 'g', 's'], ['a', 'c', 'c', 'o', 'u', 'n', 't', 's'],
      ['f', 'o', 'r', 'e', 'i', 'g', 'n', '_', 'a', 'p', 'p', 's'],
      ['f', 'o', 'r', 'e', 'i', 'g', 'n', '_', 'a', 's', 's', 'e', 't', 's'],
      ['l', 'o', 'c', 'a', 'l', '_', 's', 't', 'a', 't', 'e', '_', 's', 'c', 'h', 'e', 'm', 'a'],
      ['g', 'l', 'o', 'b', 'a', 'l', '_', 's', 't', 'a', 't', 'e', '_', 's', 'c', 'h', 'e', 'm', 'a'],
      ['a', 'p', 'p', 'r', 'o', 'v', 'a', 'l', '_', 'p', 'r', 'o', 'g', 'r', 'a', 'm'],
      ['c', 'l', 'e', 'a', 'r', '_', 's', 't', 'a', 't', 'e', '_', 'p', 'r', 'o', 'g', 'r', 'a', 'm'],
      ['e', 'x', 't', 'r', 'a', '_', 'p', 'r', 'o', 'g', 'r', 'a', 'm', '_', 'p', 'a', 'g', 'e', 's']]
  | .compactCert _ => [['c', 'e', 'r', 't', '_', 'r', 'o', 'u', 'n', 'd'], ['c', 'e', 'r', 't', '_', 't', 'y', 'p', 'e']]

/-- The names of the common fields and of the type. -/
def commonNames : List (List Char) :=
  [['t', 'y', 'p', 'e'], ['s', 'n', 'd'], ['f', 'e', 'e'], ['f', 'v'], ['l', 'v'], ['n', 'o', 't', 'e'],
   ['g', 'e', 'n'], ['g', 'h'], ['g', 'r', 'p'], ['l', 'x'], ['r', 'e', 'k', 'e', 'y']]

theorem mapPairs_flat (ps : List (Key × MP)) : mapPairs (flat ps) = ps.map fun p => (.str p.1.bytes, p.2) := by
  induction ps with
  | nil => rfl
  | cons p ps ih => obtain ⟨k, v⟩ := p; rw [flat, mapPairs, ih]; rfl

theorem skipIf_mem {c : Bool} {k : Key} {v : MP} {p : Key × MP} (h : p ∈ skipIf c k v) : p.1 = k := by
  unfold skipIf at h
  cases c
  · simp at h; rw [h]
  · simp at h

theorem txPairs_names (t : Transaction) (p : Key × MP) (h : p ∈ txPairs t) :
    p.1.chars ∈ commonNames ++ wireNames t.fields := by
  simp only [txPairs, List.mem_append, List.mem_cons] at h
  rcases h with h | rfl | h
  · simp only [headerPairs, List.mem_append] at h
    refine List.mem_append_left _ ?_
    rcases h with ((((((((h | h) | h) | h) | h) | h) | h) | h) | h) | h <;> rw [skipIf_mem h] <;> simp [commonNames, Key.chars]
  · exact List.mem_append_left _ (by simp [commonNames, Key.chars])
  · refine List.mem_append_right _ ?_
    cases hf : t.fields with
    | payment f =>
      rw [hf] at h
      simp only [bodyPairs, List.mem_append] at h
      rcases h with (h | h) | h <;> rw [skipIf_mem h] <;> simp [wireNames, Key.chars]
    | keyreg f =>
      rw [hf] at h
      simp only [bodyPairs, List.mem_cons, List.not_mem_nil, or_false] at h
      rcases h with rfl | rfl | rfl | rfl | rfl | rfl <;> simp [wireNames, Key.chars]
    | assetConfig f =>
      rw [hf] at h
      simp only [bodyPairs, List.mem_cons, List.not_mem_nil, or_false] at h
      rcases h with rfl | rfl <;> simp [wireNames, Key.chars]
    | assetTransfer f =>
      rw [hf] at h
      simp only [bodyPairs, List.mem_cons, List.not_mem_nil, or_false] at h
      rcases h with rfl | rfl | rfl | rfl | rfl <;> simp [wireNames, Key.chars]
    | assetFreeze f =>
      rw [hf] at h
      simp only [bodyPairs, List.mem_cons, List.not_mem_nil, or_false] at h
      rcases h with rfl | rfl | rfl <;> simp [wireNames, Key.chars]
    | appCall f =>
      rw [hf] at h
      simp only [bodyPairs, List.mem_cons, List.not_mem_nil, or_false] at h
      rcases h with rfl | rfl | rfl | rfl | rfl | rfl | rfl | rfl | rfl | rfl | rfl <;> simp [wireNames, Key.chars]
    | compactCert f =>
      rw [hf] at h
      simp only [bodyPairs, List.mem_cons, List.not_mem_nil, or_false] at h
      rcases h with rfl | rfl <;> simp [wireNames, Key.chars]

/-- The common fields that have their default values. -/
def defaultFields (h : Header) : List (Prop × List Char) :=
  [(h.sender = List.replicate 32 0, ['s', 'n', 'd']), (h.fee = 0, ['f', 'e', 'e']), (h.firstValid = 0, ['f', 'v']),
   (h.lastValid = 0, ['l', 'v']), (h.note = [], ['n', 'o', 't', 'e']), (h.genesisId = [], ['g', 'e', 'n']),
   (h.genesisHash = List.replicate 32 0, ['g', 'h']), (h.group = List.replicate 32 0, ['g', 'r', 'p']),
   (h.lease = List.replicate 32 0, ['l', 'x']), (h.rekeyTo = List.replicate 32 0, ['r', 'e', 'k', 'e', 'y'])]

theorem absent_header (t : Transaction) (k : Key) (hk : k ∈ [Key.snd, .fee, .fv, .lv, .note, .gen, .gh, .grp, .lx, .rekey])
    (h : valsP k (headerPairs t.header) = []) : Absent (flat (txPairs t)) none k.chars := by
  rw [← vals_nil_iff, vals_flat, txPairs, valsP_append, h, body_no_header _ k hk]
  rfl

/-- The value is what the transaction should be written as: a map in which every field has its name and its value
(addresses as byte strings), every field once; common fields with default values are left out, and there are no others. -/
def WritesTx (L : Lib) (t : Transaction) (v : MP) : Prop :=
  ∃ kvs, v = .map kvs ∧ ReadsHeader IsBin kvs t.header ∧ ReadsFields L IsBin kvs t.fields ∧
    (∀ d ∈ defaultFields t.header, d.1 → Absent kvs none d.2) ∧
    (∀ e ∈ mapPairs kvs, ∃ name ∈ commonNames ++ wireNames t.fields, e.1 = .str (textBytes name))

theorem writesTx_txMP (L : Lib) (t : Transaction) (ht : TxTyped L t) : WritesTx L t (txMP t) := by
  have h1 : decTxWith L anyAddr (txMP t) = some t := by
    rw [decTxWith_eq L anyAddr t ht (fun a => Or.inr rfl)]
    exact if_pos fun a _ => rfl
  obtain ⟨kvs, e, _, hh, hf⟩ := (decTxWith_iff L anyAddr_iff _ _).1 h1
  rw [txMP] at e
  injection e with e
  subst e
  refine ⟨_, rfl, hh, hf, ?_, ?_⟩
  · intro d hd hdef
    simp only [defaultFields, List.mem_cons, List.not_mem_nil, or_false] at hd
    rcases hd with rfl | rfl | rfl | rfl | rfl | rfl | rfl | rfl | rfl | rfl
    · exact absent_header t .snd (by simp) (by
        have : t.header.sender = zero32 := hdef
        simp [headerPairs, valsP_append, valsP_skipIf, this])
    · exact absent_header t .fee (by simp) (by
        have : t.header.fee = 0 := hdef
        simp [headerPairs, valsP_append, valsP_skipIf, this])
    · exact absent_header t .fv (by simp) (by
        have : t.header.firstValid = 0 := hdef
        simp [headerPairs, valsP_append, valsP_skipIf, this])
    · exact absent_header t .lv (by simp) (by
        have : t.header.lastValid = 0 := hdef
        simp [headerPairs, valsP_append, valsP_skipIf, this])
    · exact absent_header t .note (by simp) (by
        have : t.header.note = [] := hdef
        simp [headerPairs, valsP_append, valsP_skipIf, this])
    · exact absent_header t .gen (by simp) (by
        have : t.header.genesisId = [] := hdef
        simp [headerPairs, valsP_append, valsP_skipIf, this])
    · exact absent_header t .gh (by simp) (by
        have : t.header.genesisHash = zero32 := hdef
        simp [headerPairs, valsP_append, valsP_skipIf, this])
    · exact absent_header t .grp (by simp) (by
        have : t.header.group = zero32 := hdef
        simp [headerPairs, valsP_append, valsP_skipIf, this])
    · exact absent_header t .lx (by simp) (by
        have : t.header.lease = zero32 := hdef
        simp [headerPairs, valsP_append, valsP_skipIf, this])
    · exact absent_header t .rekey (by simp) (by
        have : t.header.rekeyTo = zero32 := hdef
        simp [headerPairs, valsP_append, valsP_skipIf, this])
  · intro e he
    rw [mapPairs_flat, List.mem_map] at he
    obtain ⟨p, hp, rfl⟩ := he
    exact ⟨p.1.chars, txPairs_names t p hp, rfl⟩

/-- C120: the bytes of a transaction represent such a map. -/
theorem C120_writes (L : Lib) (t : Transaction) (ht : TxTyped L t) : ∃ v, Repr v (enc (txMP t)) ∧ WritesTx L t v :=
  ⟨_, repr_enc _ (fits_tx ht), writesTx_txMP L t ht⟩

/-- The values a signed transaction should be written as: those parts that are there, in order. -/
def WritesStx (L : Lib) (s : SignedTx) (v : MP) : Prop :=
  ∃ a b c d e, v = .arr (a ++ (b ++ (c ++ d :: e))) ∧
    ((s.sig = List.replicate 64 0 ∧ a = []) ∨ (s.sig ≠ List.replicate 64 0 ∧ ∃ w, a = [w] ∧ IsSig L s.sig w)) ∧
    ((s.msig = none ∧ b = []) ∨ (∃ m w, s.msig = some m ∧ b = [w] ∧ IsMsig L m w)) ∧
    ((s.lsig = none ∧ c = []) ∨ (∃ l w, s.lsig = some l ∧ c = [w] ∧ IsLsig L l w)) ∧
    WritesTx L s.tx d ∧
    ((s.authAddr = List.replicate 32 0 ∧ e = []) ∨ (s.authAddr ≠ List.replicate 32 0 ∧ ∃ w, e = [w] ∧ IsBin s.authAddr w))

/-- C120: the bytes of a signed transaction represent those values. -/
theorem C120_writes_signed (L : Lib) (s : SignedTx) (hs : StxTyped L s) :
    ∃ v, Repr v (enc (stxMP s)) ∧ WritesStx L s v := by
  refine ⟨_, repr_enc _ (fits_stx hs), _, (s.msig.map msigMP).toList, (s.lsig.map lsigMP).toList, _, _,
    by rw [stxMP, List.append_assoc, List.append_assoc], ?_, ?_, ?_, writesTx_txMP L _ hs.tx, ?_⟩
  · by_cases h : s.sig = List.replicate 64 0
    · exact Or.inl ⟨h, if_pos h⟩
    · exact Or.inr ⟨h, _, if_neg h, (decSig_iff L _ _).1 (decSig_bytesArr hs.sig)⟩
  · cases h : s.msig with
    | none => exact Or.inl ⟨rfl, rfl⟩
    | some m => exact Or.inr ⟨m, _, rfl, rfl, (decMsig_iff L _ _).1 (decMsig_mp (hs.msig m h))⟩
  · cases h : s.lsig with
    | none => exact Or.inl ⟨rfl, rfl⟩
    | some m => exact Or.inr ⟨m, _, rfl, rfl, (decLsig_iff L _ _).1 (decLsig_mp (hs.lsig m h))⟩
  · by_cases h : s.authAddr = List.replicate 32 0
    · exact Or.inl ⟨h, if_pos h⟩
    · exact Or.inr ⟨h, _, if_neg h, rfl⟩

/-- C120 on a payment. -/
example : ∃ kvs, Repr (.map kvs) (enc (txMP (toyTransfer 5))) ∧ Absent kvs none ['n', 'o', 't', 'e'] ∧
    Required kvs none ['t', 'y', 'p', 'e'] (IsText (textBytes ['p', 'a', 'y'])) := by
  obtain ⟨v, h1, kvs, rfl, _, h3, h4, _⟩ := C120_writes sizesOnly (toyTransfer 5) (toyTransfer_typed _ 5 (by decide))
  exact ⟨kvs, h1, h4 ((toyTransfer 5).header.note = [], ['n', 'o', 't', 'e']) (by simp [defaultFields]) rfl, h3.1⟩

/-- C120 on a signed payment without a signature: one value only. -/
example : ∃ v, Repr v (enc (stxMP (toySigned (toyTransfer 5)))) ∧ WritesStx sizesOnly (toySigned (toyTransfer 5)) v :=
  C120_writes_signed _ _ (toySigned_typed (toyTransfer_typed _ 5 (by decide)))

/-! ## C121: the order of the fields -/

/-- The texts of the keys of a map, in order. -/
def wireKeys (kvs : List MP) : List Bytes := (mapPairs kvs).filterMap fun e => match e.1 with
  | .str s => some s
  | _ => none

theorem wireKeys_flat (ps : List (Key × MP)) : wireKeys (flat ps) = ps.map fun p => p.1.bytes := by
  rw [wireKeys, mapPairs_flat]
  induction ps with
  | nil => rfl
  | cons p ps ih => simp [ih]

/-- C121 is violated: a transaction with a sender and a fee is never written with its fields in ascending order. -/
theorem C121_violated (t : Transaction) (ht : TxTyped sizesOnly t) (hs : t.header.sender ≠ List.replicate 32 0)
    (hf : t.header.fee ≠ 0) (kvs : List MP) (h : Repr (.map kvs) (enc (txMP t))) :
    ¬ List.Pairwise (fun a b : Bytes => a < b) (wireKeys kvs) := by
  have e := (C119_unambiguous _ _ _ _ [] [] (repr_enc _ (fits_tx ht)) h rfl).1
  rw [txMP] at e
  injection e with e
  subst e
  rw [wireKeys_flat, txPairs, headerPairs]
  have hs' : ¬ t.header.sender = zero32 := hs
  rw [show skipIf (decide (t.header.sender = zero32)) .snd (.bin t.header.sender) = [(.snd, .bin t.header.sender)] by
      simp [skipIf, hs'],
    show skipIf (decide (t.header.fee = 0)) .fee (.uint t.header.fee) = [(.fee, .uint t.header.fee)] by simp [skipIf, hf]]
  simp only [List.append_assoc, List.cons_append, List.nil_append, List.map_cons, List.pairwise_cons]
  rintro ⟨h1, _⟩
  have := h1 _ (List.mem_cons_self)
  revert this
  decide

/-- C121, what does hold: no field is written twice. Missing: the order. -/
theorem C121_distinct_partial (t : Transaction) (ht : TxTyped sizesOnly t) :
    ∃ kvs, Repr (.map kvs) (enc (txMP t)) ∧ (wireKeys kvs).Nodup ∧
      (wireKeys kvs).length = (mapPairs kvs).length := by
  refine ⟨_, repr_enc _ (fits_tx ht), ?_, ?_⟩
  · rw [wireKeys_flat]
    have hsk : ∀ (c : Bool) (k : Key) (v : MP), ((skipIf c k v).map Prod.fst).Sublist [k] := by
      intro c k v
      cases c <;> simp [skipIf]
    have hh : ((headerPairs t.header).map Prod.fst).Sublist
        [Key.snd, .fee, .fv, .lv, .note, .gen, .gh, .grp, .lx, .rekey] := by
      simp only [headerPairs, List.map_append]
      exact (((((((((hsk _ _ _).append (hsk _ _ _)).append (hsk _ _ _)).append (hsk _ _ _)).append
        (hsk _ _ _)).append (hsk _ _ _)).append (hsk _ _ _)).append (hsk _ _ _)).append (hsk _ _ _)).append (hsk _ _ _)
    have hb : ∃ l, ((bodyPairs t.fields).map Prod.fst).Sublist l ∧
        ([Key.snd, .fee, .fv, .lv, .note, .gen, .gh, .grp, .lx, .rekey] ++ Key.txType :: l).Nodup := by
      cases t.fields with
      | payment f =>
        refine ⟨[Key.rcv, .amt, .close], ?_, by decide⟩
        simp only [bodyPairs, List.map_append]
        exact ((hsk _ _ _).append (hsk _ _ _)).append (hsk _ _ _)
      | keyreg f => exact ⟨_, List.Sublist.refl _, by simp [bodyPairs]⟩
      | assetConfig f => exact ⟨_, List.Sublist.refl _, by simp [bodyPairs]⟩
      | assetTransfer f => exact ⟨_, List.Sublist.refl _, by simp [bodyPairs]⟩
      | assetFreeze f => exact ⟨_, List.Sublist.refl _, by simp [bodyPairs]⟩
      | appCall f => exact ⟨_, List.Sublist.refl _, by simp [bodyPairs]⟩
      | compactCert f => exact ⟨_, List.Sublist.refl _, by simp [bodyPairs]⟩
    obtain ⟨l, hl, hn⟩ := hb
    have hsub : ((txPairs t).map Prod.fst).Sublist
        ([Key.snd, .fee, .fv, .lv, .note, .gen, .gh, .grp, .lx, .rekey] ++ Key.txType :: l) := by
      rw [txPairs, List.map_append, List.map_cons]
      exact hh.append (hl.cons_cons _)
    have : (((txPairs t).map Prod.fst).map Key.bytes).Nodup :=
      (hn.sublist hsub).map (fun a b h => key_bytes_inj h)
    rw [List.map_map] at this
    exact this
  · rw [wireKeys_flat, mapPairs_flat, List.length_map, List.length_map]

example : ¬ ∃ kvs, Repr (.map kvs) (enc (txMP (toyTransfer 5))) ∧
    List.Pairwise (fun a b : Bytes => a < b) (wireKeys kvs) := fun ⟨kvs, h1, h2⟩ =>
  C121_violated _ (toyTransfer_typed _ 5 (by decide)) (by decide) (by decide) kvs h1 h2

/-- A case of `C118_well_formed`: what `toyWire` is read as has fields of the right sizes. -/
example : TxTyped sizesOnly ⟨Header.default, .compactCert ⟨256⟩⟩ := by
  refine C118_well_formed sizesOnly (enc (.map toyWire)) _ ((C118_reads _ _ _).2
    ⟨.map toyWire, _, [], (List.append_nil _).symm, repr_enc _ ?_, ?_⟩)
  · simp [MP.Fits, FitsList, toyWire, textBytes]
  · exact (decTx_iff _ _ _).1 (by decide +kernel)

/-- A case of `C118_signed_well_formed`: a signed transaction with all three kinds of signature, read from its bytes. -/
example : ∃ s bs, decodeStx sizesOnly bs = some s ∧ StxTyped sizesOnly s := by
  have h : decodeStx sizesOnly (enc (stxMP
      ⟨List.replicate 64 7, some ⟨1, 1, []⟩, some ⟨[1], List.replicate 64 0, ⟨0, 0, []⟩, []⟩, toyCert, zero32⟩)) =
      some ⟨List.replicate 64 7, some ⟨1, 1, []⟩, some ⟨[1], List.replicate 64 0, ⟨0, 0, []⟩, []⟩, toyCert, zero32⟩ := by
    decide +kernel
  exact ⟨_, _, h, C118_signed_well_formed _ _ _ h⟩

/-- A case of `C118_other_keys_refused`: a negative number as a key. -/
example : decTx sizesOnly (.map (.nil :: .uint 1 :: toyWire)) = none := by
  refine C118_other_keys_refused _ _ (.nil, .uint 1) (by simp [mapPairs]) ?_ ?_ <;> simp [IsText]

/-- A case of `C118_positions`: the second field given by its position. -/
example : decTx sizesOnly (.map [.uint 1, .uint 77, .str (textBytes ['t', 'y', 'p', 'e']), .str (textBytes ['p', 'a', 'y'])]) =
    some ⟨Header.default, .payment ⟨List.replicate 32 0, 77, none⟩⟩ := C118_positions _ 77 (by decide)

end Verif.Props
