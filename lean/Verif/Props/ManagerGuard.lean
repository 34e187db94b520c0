import Verif.Model.ManagerGuard
import Verif.Props.OtsGuard
/-!
# C179: the account manager after a deletion that crashed
-/

namespace Verif.Props
open Verif Verif.Account Verif.Multisig Verif.Ots

/-! ## Specification -/

/-- A call of `AccountManager::delete_old_keys`. -/
structure GuardedDel (S : Scheme) where
  header : Block.HeaderBody
  ccSigs : Bytes → Option Nat
  certRounds : Nat
  defaultDilution : Nat
  rnd : Identity → Nat → Option S.Sk

/-- The entries after the calls, whose crashes are survived, and which calls returned. -/
def runGuardedDels {S : Scheme} (E : Enc) (K : Keys S) :
    List (Identity × GuardedPart S) → List (GuardedDel S) → List Bool × List (Identity × GuardedPart S)
  | l, [] => ([], l)
  | l, d :: ds =>
    let r := deleteLoopG E K d.header d.ccSigs d.certRounds d.defaultDilution d.rnd l
    let rest := runGuardedDels E K r.2.2 ds
    (r.1 :: rest.1, rest.2)

/-! ## C179 -/

/-- **C179**, the part that holds: with a source that works and no earlier crash, the manager deletes as in `C30`. -/
theorem C179_manager_works_partial {S : Scheme} (E : Enc) (K : Keys S) (header : Block.HeaderBody)
    (ccSigs : Bytes → Option Nat) (certRounds dd : Nat) (fresh : Identity → Nat → S.Sk)
    (l : List (Identity × Participation S)) (l' : List (Identity × Participation S)) (w : List (Name × Bytes))
    (h : deleteLoop E K header ccSigs certRounds dd fresh l = .ok (l', w)) :
    deleteLoopG E K header ccSigs certRounds dd (fun id o => some (fresh id o)) (l.map fun e => (e.1, ⟨e.2, false⟩)) =
      (true, w, l'.map fun e => (e.1, ⟨e.2, false⟩)) := by
  induction l generalizing l' w with
  | nil =>
    injection h with h
    obtain ⟨rfl, rfl⟩ := Prod.mk.inj h
    rfl
  | cons e l ih =>
    obtain ⟨id, p⟩ := e
    unfold deleteLoop at h
    obtain ⟨next, h1, h⟩ := Res.bind_eq_ok.1 h
    obtain ⟨⟨p', w1⟩, h2, h⟩ := Res.bind_eq_ok.1 h
    obtain ⟨⟨l2, w2⟩, h3, h⟩ := Res.bind_eq_ok.1 h
    injection h with h
    obtain ⟨rfl, rfl⟩ := Prod.mk.inj h
    have hp : deleteOldKeysG E K ⟨p, false⟩ next dd (fun o => some (fresh id o)) = (true, w1, ⟨p', false⟩) := by
      unfold deleteOldKeys at h2
      unfold deleteOldKeysG
      obtain ⟨i, hi, h2⟩ := Res.bind_eq_ok.1 h2
      simp only [hi]
      cases hd : deleteBefore E p.voting i (if p.keyDilution = 0 then dd else p.keyDilution) (fresh id) with
      | ok st =>
        simp only [hd] at h2
        injection h2 with h2
        obtain ⟨rfl, rfl⟩ := Prod.mk.inj h2
        have hb : i.batch + 1 < u64Lim := (deleteBefore_signable E _ _ i _ _ hd).1
        obtain ⟨st', e1, e2⟩ := C179_works_partial E p.voting (fresh id) (fun o => some (fresh id o)) i
          (if p.keyDilution = 0 then dd else p.keyDilution) (fun _ _ _ => rfl) hb
        rw [hd] at e1
        injection e1 with e1; subst e1
        rw [e2]; rfl
      | err e => simp only [hd] at h2; cases h2
      | panic => simp only [hd] at h2; cases h2
    simp only [List.map_cons, deleteLoopG, h1, hp, ih l2 w2 h3]

/-- **C179**, refuted: once the keys of one account are locked by a crash, every later call of the manager crashes, and the
keys of the accounts visited after it are never deleted again. -/
theorem C179_manager_stuck {S : Scheme} (E : Enc) (K : Keys S) (pre : List (Identity × GuardedPart S)) (id : Identity)
    (p : GuardedPart S) (post : List (Identity × GuardedPart S)) (hp : p.poisoned = true) (ds : List (GuardedDel S)) :
    (∀ b ∈ (runGuardedDels E K (pre ++ (id, p) :: post) ds).1, b = false) ∧
    ∃ pre', pre'.length = pre.length ∧ (runGuardedDels E K (pre ++ (id, p) :: post) ds).2 = pre' ++ (id, p) :: post := by
  have hG : ∀ cur n rnd, deleteG E ⟨p.part.voting, p.poisoned⟩ cur n rnd = (.panic, ⟨p.part.voting, p.poisoned⟩) := by
    intro cur n rnd; unfold deleteG; rw [if_pos hp]
  have hone : ∀ next dd rnd, deleteOldKeysG E K p next dd rnd = (false, [], p) := by
    intro next dd rnd
    unfold deleteOldKeysG
    simp only [hG]
    cases (roundId next (if p.part.keyDilution = 0 then dd else p.part.keyDilution) : Res Unit Ident) <;> rfl
  have hstep : ∀ (d : GuardedDel S) (pre : List (Identity × GuardedPart S)),
      (deleteLoopG E K d.header d.ccSigs d.certRounds d.defaultDilution d.rnd (pre ++ (id, p) :: post)).1 = false ∧
      ∃ pre', pre'.length = pre.length ∧
        (deleteLoopG E K d.header d.ccSigs d.certRounds d.defaultDilution d.rnd (pre ++ (id, p) :: post)).2.2 =
          pre' ++ (id, p) :: post := by
    intro d pre
    induction pre with
    | nil =>
      simp only [List.nil_append, deleteLoopG]
      cases hn : nextRound d.header d.ccSigs d.certRounds p.part.parent with
      | ok next => simp only [hone]; exact ⟨trivial, [], rfl, rfl⟩
      | err e => exact ⟨rfl, [], rfl, rfl⟩
      | panic => exact ⟨rfl, [], rfl, rfl⟩
    | cons e pre ih =>
      obtain ⟨i, q⟩ := e
      obtain ⟨a, pre', b, c⟩ := ih
      simp only [List.cons_append, deleteLoopG]
      cases hn : nextRound d.header d.ccSigs d.certRounds q.part.parent with
      | ok next =>
        simp only
        rcases hq : deleteOldKeysG E K q next d.defaultDilution (d.rnd i) with ⟨_ | _, w, q'⟩
        · exact ⟨rfl, (i, q') :: pre, rfl, rfl⟩
        · exact ⟨a, (i, q') :: pre', by simp [b], by simp [c]⟩
      | err e => exact ⟨rfl, (i, q) :: pre, rfl, rfl⟩
      | panic => exact ⟨rfl, (i, q) :: pre, rfl, rfl⟩
  induction ds generalizing pre with
  | nil => exact ⟨by simp [runGuardedDels], pre, rfl, rfl⟩
  | cons d ds ih =>
    obtain ⟨a, pre', b, c⟩ := hstep d pre
    simp only [runGuardedDels, c, a]
    obtain ⟨h1, pre2, h2, h3⟩ := ih pre'
    exact ⟨fun r hr => by rcases List.mem_cons.1 hr with rfl | hr; exacts [rfl, h1 r hr], pre2, by omega, h3⟩

/-- An account whose keys are locked, before another one. -/
example : ∃ (p q : GuardedPart toyScheme) (i j : Identity), p.poisoned = true ∧ q.poisoned = false ∧ i ≠ j ∧
    p.part.voting = crashedKeys.st ∧ q.part.voting = twoBatches :=
  ⟨⟨⟨[1], ⟨[2], [3]⟩, crashedKeys.st, 0, 5, 3⟩, true⟩, ⟨⟨[2], ⟨[2], [3]⟩, twoBatches, 0, 5, 3⟩, false⟩, ⟨[1], 0, 5, [9], [3]⟩,
    ⟨[2], 0, 5, [9], [3]⟩, rfl, rfl, by decide, rfl, rfl⟩

/-- A case of `C179_manager_works_partial`: nothing to delete from. -/
example {S : Scheme} (E : Enc) (K : Keys S) (header : Block.HeaderBody) (cc : Bytes → Option Nat) (n dd : Nat)
    (fresh : Identity → Nat → S.Sk) :
    deleteLoopG E K header cc n dd (fun id o => some (fresh id o)) [] = (true, [], []) :=
  C179_manager_works_partial E K header cc n dd fresh [] [] [] rfl

end Verif.Props
