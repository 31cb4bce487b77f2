import Verif.Model.Connect
import Verif.Lemmas.Monad
import Verif.Lemmas.Text
import Verif.Props.C41Secondaries

/-!
# C65: the Secondaries at the start of the daemon

`createIPSecondaries` against a specification over the storage, the network and the configuration.
-/

namespace Aktualizr.Connect

open M (gets modify lift)

/-! ## Specification -/

/-- The storage has a Secondary with these properties. -/
def IsKnown (s : St) (k : Known) : Prop :=
  (k.serial, k.hwId) ∈ s.store.ecus.tail ∧ k.extra = (s.extra.lookup k.serial).getD "" ∧
    ∃ row, row = (s.store.secs.lookup k.serial).getD {} ∧ k.type = row.type ∧
      k.key = if row.keyType = "" then ⟨"", .unknown⟩ else ⟨row.key, Prov.keyTypeOf row.keyType⟩

/-- Its address is on record. -/
def RecordedAt (env : Env) (k : Known) (ip : String) (port : Nat) : Prop :=
  ∃ kvs, env.parse k.extra = .obj kvs ∧ kvs.lookup "ip" = some (.str ip) ∧ kvs.lookup "port" = some (.int port)

/-- An answer that can be an ECU's. -/
def Proper (env : Env) (serial hwId key : String) (t : KeyType) : Prop :=
  1 ≤ serial.utf8ByteSize ∧ serial.utf8ByteSize ≤ 64 ∧ hwId.utf8ByteSize ≤ 200 ∧
    (t = .rsa2048 ∨ t = .rsa3072 ∨ t = .rsa4096 → env.rsaType key = t)

/-- What stands for a known Secondary `k` after the start: what answered at its address, or `k` itself if
there was no connection or no possible answer. -/
inductive Took (env : Env) (net : Net) (ip : String) (port : Nat) (k : Known) : Sec → Prop
  | answered (n : Nat) (serial hwId key : String) (t : KeyType) :
      net n ip port = .info serial hwId key t → Proper env serial hwId key t → t ≠ .unknown →
      Took env net ip port k ⟨ip, port, serial, hwId, ⟨key, t⟩⟩
  | unreachable (n : Nat) : net n ip port = .refused → Took env net ip port k ⟨ip, port, k.serial, k.hwId, k.key⟩
  | impossible (n : Nat) (serial hwId key : String) (t : KeyType) :
      net n ip port = .info serial hwId key t → ¬ Proper env serial hwId key t →
      Took env net ip port k ⟨ip, port, k.serial, k.hwId, k.key⟩

/-- What a contacted Secondary has told; without an answer it is unknown. -/
inductive Told (env : Env) (ip : String) (port : Nat) : Contact → Sec → Prop
  | info (serial hwId key : String) (t : KeyType) : Proper env serial hwId key t →
      Told env ip port (.info serial hwId key t) ⟨ip, port, serial, hwId, ⟨key, t⟩⟩
  | nothing (c : Contact) : c = .silent ∨ c = .refused →
      Told env ip port c ⟨ip, port, "Unknown", "Unknown", ⟨"", .unknown⟩⟩

/-! ## Pieces -/

theorem mkEcuSerial_ok {a b : String} : mkEcuSerial a = .ok b ↔ 1 ≤ a.utf8ByteSize ∧ a.utf8ByteSize ≤ 64 ∧ a = b := by
  unfold mkEcuSerial
  split
  · simp; omega
  · split
    · simp; omega
    · simp only [Except.ok.injEq]
      exact ⟨fun h => ⟨by omega, by omega, h⟩, fun h => h.2.2⟩

theorem mkHwId_ok {a b : String} : mkHwId a = .ok b ↔ a.utf8ByteSize ≤ 200 ∧ a = b := by
  unfold mkHwId
  split
  · simp; omega
  · simp only [Except.ok.injEq]
    exact ⟨fun h => ⟨by omega, h⟩, fun h => h.2⟩

theorem makeKey_ok {env : Env} {v : String} {t : KeyType} {k : PublicKey} : makeKey env v t = .ok k ↔
    (t = .rsa2048 ∨ t = .rsa3072 ∨ t = .rsa4096 → env.rsaType v = t) ∧ k = ⟨v, t⟩ := by
  unfold makeKey
  by_cases h : (t = .rsa2048 ∨ t = .rsa3072 ∨ t = .rsa4096) ∧ t ≠ env.rsaType v
  · rw [if_pos h]
    simp only [reduceCtorEq, false_iff]
    rintro ⟨h1, -⟩
    exact h.2 (h1 h.1).symm
  · rw [if_neg h]
    simp only [Except.ok.injEq]
    constructor
    · rintro rfl
      exact ⟨fun ht => Classical.byContradiction fun hc => h ⟨ht, fun e => hc e.symm⟩, rfl⟩
    · rintro ⟨-, rfl⟩; rfl

theorem create_ok {env : Env} {ip : String} {port : Nat} {c : Contact} {x : Sec} :
    create env ip port c = .ok x ↔ Told env ip port c x := by
  cases c with
  | refused =>
    simp only [create, unknown, Except.ok.injEq]
    constructor
    · rintro rfl; exact .nothing _ (.inr rfl)
    · intro h; cases h; rfl
  | silent =>
    simp only [create, unknown, Except.ok.injEq]
    constructor
    · rintro rfl; exact .nothing _ (.inl rfl)
    · intro h; cases h; rfl
  | info s h k t =>
    simp only [create, exc_bind_ok, mkEcuSerial_ok, mkHwId_ok, makeKey_ok, exc_pure_ok]
    constructor
    · rintro ⟨_, ⟨h1, h2, rfl⟩, _, ⟨h3, rfl⟩, _, ⟨h4, rfl⟩, rfl⟩
      exact .info _ _ _ _ ⟨h1, h2, h3, h4⟩
    · intro ht
      cases ht with
      | info _ _ _ _ hp => exact ⟨_, ⟨hp.1, hp.2.1, rfl⟩, _, ⟨hp.2.2.1, rfl⟩, _, ⟨hp.2.2.2, rfl⟩, rfl⟩
      | nothing _ h => simp at h

theorem connectAndCreate_ok {env : Env} {ip : String} {port : Nat} {c : Contact} {o : Option Sec} :
    connectAndCreate env ip port c = .ok o ↔ (c = .refused ∧ o = none) ∨ (c ≠ .refused ∧ ∃ x, o = some x ∧ Told env ip port c x) := by
  cases c with
  | refused => simp [connectAndCreate, eq_comm]
  | silent =>
    simp only [connectAndCreate, exc_bind_ok, create_ok, exc_pure_ok]
    simp only [reduceCtorEq, false_and, ne_eq, not_false_eq_true, true_and, false_or]
    exact ⟨fun ⟨x, h1, h2⟩ => ⟨x, h2.symm, h1⟩, fun ⟨x, h1, h2⟩ => ⟨x, h2, h1.symm⟩⟩
  | info a b k t =>
    simp only [connectAndCreate, exc_bind_ok, create_ok, exc_pure_ok]
    simp only [reduceCtorEq, false_and, ne_eq, not_false_eq_true, true_and, false_or]
    exact ⟨fun ⟨x, h1, h2⟩ => ⟨x, h2.symm, h1⟩, fun ⟨x, h1, h2⟩ => ⟨x, h2, h1.symm⟩⟩

theorem create_err {env : Env} {ip : String} {port : Nat} {c : Contact} {e : Err} (h : create env ip port c = .error e) :
    ∃ s hw k t, c = .info s hw k t ∧ ¬ Proper env s hw k t := by
  cases c with
  | refused => simp [create] at h
  | silent => simp [create] at h
  | info s hw k t =>
    refine ⟨s, hw, k, t, rfl, fun hp => ?_⟩
    rw [create_ok.2 (.info _ _ _ _ hp)] at h
    simp at h

/-- The errors of `create` are `std::exception`s. -/
theorem create_std {env : Env} {ip : String} {port : Nat} {c : Contact} {e : Err} (h : create env ip port c = .error e) :
    e.isStd = true := by
  cases c with
  | refused => simp [create] at h
  | silent => simp [create] at h
  | info s hw k t =>
    simp only [create] at h
    unfold mkEcuSerial mkHwId makeKey at h
    by_cases h1 : s.utf8ByteSize < 1
    · simp only [h1, if_true, exc_bind_of_error, Except.error.injEq] at h; rw [← h]; rfl
    · by_cases h2 : 64 < s.utf8ByteSize
      · simp only [h1, h2, if_true, if_false, exc_bind_of_error, Except.error.injEq] at h; rw [← h]; rfl
      · simp only [h1, h2, if_false, exc_bind_of_ok] at h
        by_cases h3 : 200 < hw.utf8ByteSize
        · simp only [h3, if_true, exc_bind_of_error, Except.error.injEq] at h; rw [← h]; rfl
        · simp only [h3, if_false, exc_bind_of_ok] at h
          by_cases h4 : (t = .rsa2048 ∨ t = .rsa3072 ∨ t = .rsa4096) ∧ t ≠ env.rsaType k
          · rw [if_pos h4] at h; simp only [exc_bind_of_error, Except.error.injEq] at h; rw [← h]; rfl
          · rw [if_neg h4] at h; simp [pure, Except.pure] at h

theorem connectAndCheck_some {env : Env} {net : Net} {n : Nat} {ip : String} {port : Nat} {k : Known} {x : Sec}
    (h : connectAndCheck env ip port k (net n ip port) = some x) : Took env net ip port k x := by
  unfold connectAndCheck at h
  cases hc : connectAndCreate env ip port (net n ip port) with
  | error e =>
    rw [hc] at h
    simp only [Option.some.injEq, asKnown] at h
    subst h
    cases hn : net n ip port with
    | refused => rw [hn] at hc; simp [connectAndCreate] at hc
    | silent => rw [hn, connectAndCreate_ok.2 (.inr ⟨by simp, _, rfl, .nothing _ (.inl rfl)⟩)] at hc; simp at hc
    | info s hw kv t =>
      refine .impossible n s hw kv t hn fun hp => ?_
      rw [hn, connectAndCreate_ok.2 (.inr ⟨by simp, _, rfl, .info _ _ _ _ hp⟩)] at hc
      simp at hc
  | ok o =>
    rw [hc] at h
    rcases connectAndCreate_ok.1 hc with ⟨hn, rfl⟩ | ⟨hn, y, rfl, ht⟩
    · simp only [Option.some.injEq, asKnown] at h
      subst h
      exact .unreachable n hn
    · dsimp only at h
      split at h
      · simp at h
      · rename_i hu
        simp only [Option.some.injEq] at h
        subst h
        revert ht hu
        generalize hm : net n ip port = c
        intro ht hu
        cases ht with
        | info s hw kv t hp => exact .answered n s hw kv t hm hp hu
        | nothing _ h => simp at hu

theorem Took.addr {env : Env} {net : Net} {ip : String} {port : Nat} {k : Known} {x : Sec} (h : Took env net ip port k x) :
    x.ip = ip ∧ x.port = port := by cases h <;> exact ⟨rfl, rfl⟩

theorem Told.addr {env : Env} {ip : String} {port : Nat} {c : Contact} {x : Sec} (h : Told env ip port c x) :
    x.ip = ip ∧ x.port = port := by cases h <;> exact ⟨rfl, rfl⟩

theorem isStr_iff {j : Json} {x : String} : j.isStr x = true ↔ j = .str x := by
  cases j <;> simp [Json.isStr]

theorem isAt_ok {env : Env} {ip : String} {port : Nat} {k : Known} {b : Bool} (h : isAt env ip port k = .ok b) :
    b = true ↔ RecordedAt env k ip port := by
  unfold isAt at h
  simp only [exc_bind_ok] at h
  obtain ⟨i, hi, h⟩ := h
  unfold RecordedAt
  cases hp : env.parse k.extra with
  | obj kvs =>
    rw [hp] at hi h
    simp only [Json.get, Except.ok.injEq] at hi h
    subst hi
    cases hl : kvs.lookup "ip" with
    | none =>
      rw [hl] at h
      simp [Json.isStr] at h
      subst h
      simp [hl]
    | some v =>
      rw [hl] at h
      by_cases hs : v.isStr ip = true
      · have hv := isStr_iff.1 hs
        simp only [Option.getD_some, hs, if_true, exc_bind_of_ok, exc_pure_ok] at h
        subst h
        cases hq : kvs.lookup "port" with
        | none => simp [hl, hq]
        | some p =>
          cases p <;> simp [hl, hq, hv]
      · rw [Option.getD_some, if_neg hs] at h
        simp only [exc_pure_ok] at h
        subst h
        simp only [Bool.false_eq_true, false_iff]
        rintro ⟨kvs', e, h1, -⟩
        cases e
        rw [hl] at h1
        simp only [Option.some.injEq] at h1
        exact hs (isStr_iff.2 h1)
  | null =>
    rw [hp] at hi h
    simp only [Json.get, Except.ok.injEq] at hi
    subst hi
    simp [Json.isStr] at h
    subst h
    simp
  | _ => rw [hp] at hi; simp [Json.get] at hi

theorem findAt_none {env : Env} {ip : String} {port : Nat} {l : List Known} (h : findAt env ip port l = .ok none) :
    ∀ k ∈ l, ¬ RecordedAt env k ip port := by
  induction l with
  | nil => simp
  | cons k ks ih =>
    simp only [findAt, exc_bind_ok] at h
    obtain ⟨b, hb, h⟩ := h
    cases b with
    | true => simp at h
    | false =>
      simp only [Bool.false_eq_true, if_false] at h
      intro x hx
      rcases List.mem_cons.1 hx with rfl | hx
      · intro hr; have := (isAt_ok hb).2 hr; simp at this
      · exact ih h x hx

theorem findAt_some {env : Env} {ip : String} {port : Nat} {l : List Known} {k : Known} (h : findAt env ip port l = .ok (some k)) :
    k ∈ l ∧ RecordedAt env k ip port := by
  induction l with
  | nil => simp [findAt] at h
  | cons k' ks ih =>
    simp only [findAt, exc_bind_ok] at h
    obtain ⟨b, hb, h⟩ := h
    cases b with
    | true =>
      simp only [if_true, exc_pure_ok, Option.some.injEq] at h
      subst h
      exact ⟨List.mem_cons_self, (isAt_ok hb).1 rfl⟩
    | false =>
      simp only [Bool.false_eq_true, if_false] at h
      exact ⟨List.mem_cons_of_mem _ (ih h).1, (ih h).2⟩

theorem knownOf_ok {env : Env} {s : St} {e : String × String} {k : Known} (h : knownOf env s e = .ok k) :
    (k.serial, k.hwId) = e ∧ k.extra = (s.extra.lookup k.serial).getD "" ∧
    ∃ row, row = (s.store.secs.lookup k.serial).getD {} ∧ k.type = row.type ∧
      k.key = if row.keyType = "" then ⟨"", .unknown⟩ else ⟨row.key, Prov.keyTypeOf row.keyType⟩ := by
  unfold knownOf at h
  simp only [exc_bind_ok, mkEcuSerial_ok, mkHwId_ok, exc_pure_ok] at h
  obtain ⟨_, ⟨-, -, rfl⟩, _, ⟨-, rfl⟩, key, hk, rfl⟩ := h
  refine ⟨rfl, rfl, _, rfl, rfl, ?_⟩
  dsimp only
  unfold rowKey at hk
  split at hk
  · rename_i h0; rw [if_pos h0]; simpa using hk.symm
  · rename_i h0; rw [if_neg h0]; exact (makeKey_ok.1 hk).2

theorem knownOfAll_ok {env : Env} {s : St} {es : List (String × String)} {l : List Known} (h : knownOfAll env s es = .ok l) :
    ∀ k, k ∈ l ↔ (k.serial, k.hwId) ∈ es ∧ k.extra = (s.extra.lookup k.serial).getD "" ∧
      ∃ row, row = (s.store.secs.lookup k.serial).getD {} ∧ k.type = row.type ∧
        k.key = if row.keyType = "" then ⟨"", .unknown⟩ else ⟨row.key, Prov.keyTypeOf row.keyType⟩ := by
  induction es generalizing l with
  | nil => simp only [knownOfAll, Except.ok.injEq] at h; subst h; simp
  | cons e es ih =>
    simp only [knownOfAll, exc_bind_ok, exc_pure_ok] at h
    obtain ⟨k0, h0, ks, hks, rfl⟩ := h
    intro k
    have hk0 := knownOf_ok h0
    rw [List.mem_cons, List.mem_cons, ih hks k]
    constructor
    · rintro (rfl | ⟨h1, h2⟩)
      · exact ⟨.inl hk0.1, hk0.2⟩
      · exact ⟨.inr h1, h2⟩
    · rintro ⟨h1 | h1, h2⟩
      · left
        obtain ⟨a1, a2, r1, a3, a4, a5⟩ := hk0
        obtain ⟨b2, r2, b3, b4, b5⟩ := h2
        rw [← a1] at h1
        simp only [Prod.mk.injEq] at h1
        cases k; cases k0
        simp only at h1 a2 a3 a4 a5 b2 b3 b4 b5
        obtain ⟨rfl, rfl⟩ := h1
        subst a3 b3
        rw [← a2] at b2; rw [← a4] at b4; rw [← a5] at b5
        subst b2 b4 b5
        rfl
      · exact .inr ⟨h1, h2⟩

theorem getSecondaries_ok {env : Env} {s : St} {l : List Known} (h : getSecondaries env s = .ok l) (k : Known) :
    k ∈ l ↔ IsKnown s k := knownOfAll_ok h k

/-! ## One address -/

theorem setData_ok {serial data : String} {s s' : St} {u : Unit} (h : setData serial data s = (.ok u, s')) :
    s'.extra = Prov.put serial data s.extra ∧ s'.store.ecus = s.store.ecus ∧ s'.contacts = s.contacts := by
  unfold setData at h
  split at h
  · simp at h
  · simp only [Prod.mk.injEq, true_and] at h
    subst h
    exact ⟨rfl, rfl, rfl⟩

theorem connectKnown_ok {env : Env} {net : Net} {ip : String} {port : Nat} {k : Known} {s s' : St} {x : Sec}
    (h : connectKnown env net ip port k s = (.ok x, s')) : Took env net ip port k x ∧ s' = { s with contacts := s.contacts + 1 } := by
  unfold connectKnown at h
  obtain ⟨c, s1, h1, h2⟩ := M.bind_ok.1 h
  simp only [contact, Prod.mk.injEq, Except.ok.injEq] at h1
  obtain ⟨rfl, rfl⟩ := h1
  obtain ⟨h3, rfl⟩ := M.orThrow_ok.1 h2
  exact ⟨connectAndCheck_some h3, rfl⟩

theorem connectNew_ok {env : Env} {net : Net} {ip : String} {port : Nat} {s s' : St} {o : Option Sec}
    (h : connectNew env net ip port s = (.ok o, s')) :
    (net s.contacts ip port = .refused ∧ o = none ∧ s' = { s with contacts := s.contacts + 1 }) ∨
      (net s.contacts ip port ≠ .refused ∧ ∃ x, o = some x ∧ Told env ip port (net s.contacts ip port) x ∧
        s'.extra = Prov.put x.serial (env.canon (address ip port)) s.extra ∧ s'.store.ecus = s.store.ecus) := by
  unfold connectNew at h
  obtain ⟨c, s1, h1, h2⟩ := M.bind_ok.1 h
  simp only [contact, Prod.mk.injEq, Except.ok.injEq] at h1
  obtain ⟨rfl, rfl⟩ := h1
  obtain ⟨o', s2, h3, h4⟩ := M.bind_ok.1 h2
  simp only [M.lift_eq, Prod.mk.injEq] at h3
  obtain ⟨h3, rfl⟩ := h3
  rcases connectAndCreate_ok.1 h3 with ⟨hn, rfl⟩ | ⟨hn, x, rfl, ht⟩
  · simp only [M.pure_eq, Prod.mk.injEq, Except.ok.injEq] at h4
    obtain ⟨rfl, rfl⟩ := h4
    exact .inl ⟨hn, rfl, rfl⟩
  · dsimp only at h4
    obtain ⟨u, s3, h5, h6⟩ := M.bind_ok.1 h4
    simp only [M.pure_eq, Prod.mk.injEq, Except.ok.injEq] at h6
    obtain ⟨rfl, rfl⟩ := h6
    have := setData_ok h5
    exact .inr ⟨hn, x, rfl, ht, this.1, this.2.1⟩

/-- The outcome for one configured address. -/
theorem connectOne_ok {env : Env} {net : Net} {known : List Known} {single : Bool} {ip : String} {port : Nat} {s s' : St}
    {o : Option Sec} (h : connectOne env net known single ip port s = (.ok o, s')) :
    (∃ k ∈ known, RecordedAt env k ip port ∧ ∃ x, o = some x ∧ Took env net ip port k x ∧ s'.extra = s.extra) ∨
    ((∀ k ∈ known, ¬ RecordedAt env k ip port) ∧
      ((∃ k, known = [k] ∧ single = true ∧ k.extra = "" ∧ ∃ x, o = some x ∧ Took env net ip port k x ∧
          s'.extra = Prov.put k.serial (env.canon (address ip port)) s.extra) ∨
        (∃ n, net n ip port = .refused ∧ o = none ∧ s'.extra = s.extra) ∨
        (∃ n x, net n ip port ≠ .refused ∧ o = some x ∧ Told env ip port (net n ip port) x ∧
          s'.extra = Prov.put x.serial (env.canon (address ip port)) s.extra))) := by
  unfold connectOne at h
  obtain ⟨f, s1, h1, h2⟩ := M.bind_ok.1 h
  simp only [M.lift_eq, Prod.mk.injEq] at h1
  obtain ⟨h1, rfl⟩ := h1
  cases f with
  | some k =>
    left
    dsimp only at h2
    obtain ⟨x, s2, h3, h4⟩ := M.bind_ok.1 h2
    simp only [M.pure_eq, Prod.mk.injEq, Except.ok.injEq] at h4
    obtain ⟨rfl, rfl⟩ := h4
    obtain ⟨ht, rfl⟩ := connectKnown_ok h3
    exact ⟨k, (findAt_some h1).1, (findAt_some h1).2, x, rfl, ht, rfl⟩
  | none =>
    refine .inr ⟨findAt_none h1, ?_⟩
    dsimp only at h2
    cases hold : oldFormat single known with
    | some k =>
      left
      rw [hold] at h2
      dsimp only at h2
      obtain ⟨u, s2, h3, h4⟩ := M.bind_ok.1 h2
      obtain ⟨x, s3, h5, h6⟩ := M.bind_ok.1 h4
      simp only [M.pure_eq, Prod.mk.injEq, Except.ok.injEq] at h6
      obtain ⟨rfl, rfl⟩ := h6
      obtain ⟨ht, rfl⟩ := connectKnown_ok h5
      have hk : known = [k] ∧ single = true ∧ k.extra = "" := by
        unfold oldFormat at hold
        split at hold
        · split at hold
          · rename_i h; simp only [Option.some.injEq] at hold; subst hold; simp at h; exact ⟨rfl, h.1, h.2⟩
          · simp at hold
        · simp at hold
      exact ⟨k, hk.1, hk.2.1, hk.2.2, x, rfl, ht, (setData_ok h3).1⟩
    | none =>
      right
      rw [hold] at h2
      rcases connectNew_ok h2 with ⟨hn, rfl, rfl⟩ | ⟨hn, x, rfl, ht, hx, -⟩
      · exact .inl ⟨_, hn, rfl, rfl⟩
      · exact .inr ⟨_, x, hn, rfl, ht, hx⟩

/-! ## All addresses -/

/-- Where a Secondary that was connected to at once comes from. -/
def Source (env : Env) (net : Net) (known : List Known) (ip : String) (port : Nat) (x : Sec) : Prop :=
  (∃ k ∈ known, (RecordedAt env k ip port ∨ ((∀ k' ∈ known, ¬ RecordedAt env k' ip port) ∧ known = [k] ∧ k.extra = "")) ∧
    Took env net ip port k x) ∨
  ((∀ k ∈ known, ¬ RecordedAt env k ip port) ∧ ∃ n, net n ip port ≠ .refused ∧ Told env ip port (net n ip port) x)

theorem connectAll_ok {env : Env} {net : Net} {known : List Known} {single : Bool} {cfg : List (String × Nat)} {s s' : St}
    {r : List Sec × List String} (h : connectAll env net known single cfg s = (.ok r, s')) :
    (∀ a ∈ cfg, (∃ x ∈ r.1, Source env net known a.1 a.2 x) ∨
      (key a.1 a.2 ∈ r.2 ∧ (∀ k ∈ known, ¬ RecordedAt env k a.1 a.2) ∧ ∃ n, net n a.1 a.2 = .refused)) ∧
    (∀ x ∈ r.1, (x.ip, x.port) ∈ cfg ∧ Source env net known x.ip x.port x) ∧
    (∀ w ∈ r.2, ∃ a ∈ cfg, w = key a.1 a.2) := by
  induction cfg generalizing s s' r with
  | nil =>
    simp only [connectAll, M.pure_eq, Prod.mk.injEq, Except.ok.injEq] at h
    obtain ⟨rfl, rfl⟩ := h
    simp
  | cons a cfg ih =>
    unfold connectAll at h
    obtain ⟨o, s1, h1, h2⟩ := M.bind_ok.1 h
    obtain ⟨q, s2, h3, h4⟩ := M.bind_ok.1 h2
    obtain ⟨i1, i2, i3⟩ := ih h3
    have hone := connectOne_ok h1
    cases o with
    | some x =>
      simp only [M.pure_eq, Prod.mk.injEq, Except.ok.injEq] at h4
      obtain ⟨rfl, rfl⟩ := h4
      have hsrc : Source env net known a.1 a.2 x ∧ x.ip = a.1 ∧ x.port = a.2 := by
        rcases hone with ⟨k, hk, hr, y, hy, ht, -⟩ | ⟨hno, ⟨k, hk, -, he, y, hy, ht, -⟩ | ⟨n, hn, hy, -⟩ | ⟨n, y, hn, hy, ht, -⟩⟩
        · cases hy; exact ⟨.inl ⟨k, hk, .inl hr, ht⟩, ht.addr⟩
        · cases hy; exact ⟨.inl ⟨k, by simp [hk], .inr ⟨hno, hk, he⟩, ht⟩, ht.addr⟩
        · simp at hy
        · cases hy; exact ⟨.inr ⟨hno, n, hn, ht⟩, ht.addr⟩
      refine ⟨?_, ?_, ?_⟩
      · intro b hb
        rcases List.mem_cons.1 hb with rfl | hb
        · exact .inl ⟨x, List.mem_cons_self, hsrc.1⟩
        · rcases i1 b hb with ⟨y, hy, hs⟩ | h
          · exact .inl ⟨y, List.mem_cons_of_mem _ hy, hs⟩
          · exact .inr h
      · intro y hy
        rcases List.mem_cons.1 hy with rfl | hy
        · refine ⟨List.mem_cons.2 (.inl ?_), ?_⟩
          · rw [hsrc.2.1, hsrc.2.2]
          · rw [hsrc.2.1, hsrc.2.2]; exact hsrc.1
        · exact ⟨List.mem_cons_of_mem _ (i2 y hy).1, (i2 y hy).2⟩
      · intro w hw
        obtain ⟨b, hb, e⟩ := i3 w hw
        exact ⟨b, List.mem_cons_of_mem _ hb, e⟩
    | none =>
      simp only [M.pure_eq, Prod.mk.injEq, Except.ok.injEq] at h4
      obtain ⟨rfl, rfl⟩ := h4
      have hno : (∀ k ∈ known, ¬ RecordedAt env k a.1 a.2) ∧ ∃ n, net n a.1 a.2 = .refused := by
        rcases hone with ⟨k, hk, hr, y, hy, ht, -⟩ | ⟨hno, ⟨k, hk, -, he, y, hy, ht, -⟩ | ⟨n, hn, hy, -⟩ | ⟨n, y, hn, hy, ht, -⟩⟩
        · simp at hy
        · simp at hy
        · exact ⟨hno, n, hn⟩
        · simp at hy
      refine ⟨?_, ?_, ?_⟩
      · intro b hb
        rcases List.mem_cons.1 hb with rfl | hb
        · exact .inr ⟨List.mem_cons_self, hno⟩
        · rcases i1 b hb with h | ⟨h, h'⟩
          · exact .inl h
          · exact .inr ⟨List.mem_cons_of_mem _ h, h'⟩
      · intro y hy
        exact ⟨List.mem_cons_of_mem _ (i2 y hy).1, (i2 y hy).2⟩
      · intro w hw
        rcases List.mem_cons.1 hw with rfl | hw
        · exact ⟨a, List.mem_cons_self, rfl⟩
        · obtain ⟨b, hb, e⟩ := i3 w hw
          exact ⟨b, List.mem_cons_of_mem _ hb, e⟩

/-! ## Waiting -/

theorem welcome_ok {env : Env} {ip : String} {port : Nat} {c : Contact} {s s' : St} {l : List Sec}
    (h : M.catchStd (welcome env ip port c) (fun _ => pure []) s = (.ok l, s')) :
    (∃ x, l = [x] ∧ Told env ip port c x ∧ s'.extra = Prov.put x.serial (env.canon (address ip port)) s.extra) ∨
      (l = [] ∧ s'.extra = s.extra ∧ ∃ a b k t, c = .info a b k t ∧ ¬ Proper env a b k t) := by
  unfold M.catchStd welcome at h
  cases hc : create env ip port c with
  | ok x =>
    rw [M.run_bind (show lift (create env ip port c) s = (.ok x, s) by rw [hc]; rfl)] at h
    cases hs : setData x.serial (env.canon (address ip port)) s with
    | mk r s1 =>
      cases r with
      | ok u =>
        rw [M.run_bind hs] at h
        simp only [M.pure_eq, Prod.mk.injEq, Except.ok.injEq] at h
        obtain ⟨rfl, rfl⟩ := h
        exact .inl ⟨x, rfl, create_ok.1 hc, (setData_ok hs).1⟩
      | error e =>
        rw [M.run_bind_err hs] at h
        have : e = .crash := by
          unfold setData at hs
          split at hs <;> simp at hs
          exact hs.1.symm
        subst this
        simp [Err.isStd] at h
  | error e =>
    rw [M.run_bind_err (show lift (create env ip port c) s = (.error e, s) by rw [hc]; rfl)] at h
    simp only [create_std hc, if_true, M.pure_eq, Prod.mk.injEq, Except.ok.injEq] at h
    obtain ⟨rfl, rfl⟩ := h
    exact .inr ⟨rfl, rfl, create_err hc⟩

theorem wait_ok {env : Env} {w : List String} {es : List Event} {s s' : St} {l : List Sec}
    (h : wait env w es s = (.ok l, s')) :
    (∀ x ∈ l, ∃ c, Event.connection x.ip x.port c ∈ es ∧ Told env x.ip x.port c x) ∧
    (∀ y ∈ w, ∃ ip port c, Event.connection ip port c ∈ es ∧ key ip port = y ∧
      ((∃ x ∈ l, Told env ip port c x) ∨ ∃ a b k t, c = .info a b k t ∧ ¬ Proper env a b k t)) := by
  induction es generalizing w s s' l with
  | nil =>
    cases w with
    | nil =>
      simp only [wait, M.pure_eq, Prod.mk.injEq, Except.ok.injEq] at h
      obtain ⟨rfl, rfl⟩ := h
      simp
    | cons y w => simp [wait] at h
  | cons e es ih =>
    cases w with
    | nil =>
      simp only [wait, M.pure_eq, Prod.mk.injEq, Except.ok.injEq] at h
      obtain ⟨rfl, rfl⟩ := h
      simp
    | cons y w =>
      cases e with
      | failure => simp [wait] at h
      | connection ip port c =>
        unfold wait at h
        obtain ⟨l1, s1, h1, h2⟩ := M.bind_ok.1 h
        obtain ⟨l2, s2, h3, h4⟩ := M.bind_ok.1 h2
        simp only [M.pure_eq, Prod.mk.injEq, Except.ok.injEq] at h4
        obtain ⟨rfl, rfl⟩ := h4
        obtain ⟨i1, i2⟩ := ih h3
        have hw := welcome_ok h1
        constructor
        · intro x hx
          rcases List.mem_append.1 hx with hx | hx
          · rcases hw with ⟨x', rfl, ht, -⟩ | ⟨rfl, -⟩
            · simp only [List.mem_singleton] at hx
              subst hx
              obtain ⟨e1, e2⟩ := ht.addr
              subst e1 e2
              exact ⟨c, List.mem_cons_self, ht⟩
            · simp at hx
          · obtain ⟨c', hc, ht⟩ := i1 x hx
            exact ⟨c', List.mem_cons_of_mem _ hc, ht⟩
        · intro z hz
          by_cases hk : key ip port = z
          · refine ⟨ip, port, c, List.mem_cons_self, hk, ?_⟩
            rcases hw with ⟨x', rfl, ht, -⟩ | ⟨-, -, hn⟩
            · exact .inl ⟨x', by simp, ht⟩
            · exact .inr hn
          · obtain ⟨ip', port', c', hc, e, hr⟩ := i2 z (List.mem_filter.2 ⟨hz, by simpa using fun e => hk e.symm⟩)
            refine ⟨ip', port', c', List.mem_cons_of_mem _ hc, e, ?_⟩
            rcases hr with ⟨x, hx, ht⟩ | hr
            · exact .inl ⟨x, List.mem_append_right _ hx, ht⟩
            · exact .inr hr

theorem createIP_ok {env : Env} {net : Net} {es : List Event} {cfg : List (String × Nat)} {s s' : St} {l : List Sec}
    (h : createIPSecondaries env net es cfg s = (.ok l, s')) :
    ∃ known r s1 l2, getSecondaries env s = .ok known ∧ connectAll env net known (cfg.length == 1) cfg s = (.ok r, s1) ∧
      wait env r.2 es s1 = (.ok l2, s') ∧ l = r.1 ++ l2 := by
  unfold createIPSecondaries at h
  obtain ⟨s0, s1, h1, h2⟩ := M.bind_ok.1 h
  simp only [M.gets_eq, id, Prod.mk.injEq, Except.ok.injEq] at h1
  obtain ⟨rfl, rfl⟩ := h1
  obtain ⟨known, s2, h3, h4⟩ := M.bind_ok.1 h2
  simp only [M.lift_eq, Prod.mk.injEq] at h3
  obtain ⟨h3, rfl⟩ := h3
  obtain ⟨r, s3, h5, h6⟩ := M.bind_ok.1 h4
  obtain ⟨l2, s4, h7, h8⟩ := M.bind_ok.1 h6
  simp only [M.pure_eq, Prod.mk.injEq, Except.ok.injEq] at h8
  obtain ⟨rfl, rfl⟩ := h8
  exact ⟨known, r, s3, l2, h3, h5, h7, rfl⟩

/-! ## The theorems -/

/-- A known Secondary is there after the start: as it answered, or as it is known if it cannot be reached. -/
theorem C65_known {env : Env} {net : Net} {es : List Event} {cfg : List (String × Nat)} {s s' : St} {l : List Sec}
    (h : createIPSecondaries env net es cfg s = (.ok l, s')) {ip : String} {port : Nat} (ha : (ip, port) ∈ cfg) {k : Known}
    (hk : IsKnown s k) (hr : RecordedAt env k ip port)
    (huniq : ∀ k', IsKnown s k' → RecordedAt env k' ip port → k' = k) : ∃ x ∈ l, Took env net ip port k x := by
  obtain ⟨known, r, s1, l2, h1, h2, -, rfl⟩ := createIP_ok h
  obtain ⟨i1, -, -⟩ := connectAll_ok h2
  have hm := (getSecondaries_ok h1 k).2 hk
  rcases i1 _ ha with ⟨x, hx, ⟨k', hk', hrec, ht⟩ | ⟨hno, -⟩⟩ | ⟨-, hno, -⟩
  · have : k' = k := by
      rcases hrec with hrec | ⟨hno, -⟩
      · exact huniq k' ((getSecondaries_ok h1 k').1 hk') hrec
      · exact (hno k hm hr).elim
    subst this
    exact ⟨x, List.mem_append_left _ hx, ht⟩
  · exact (hno k hm hr).elim
  · exact (hno k hm hr).elim

/-- Full statement: every configured address has a Secondary after the start. It holds if different
addresses have different keys (`SecondaryWaiter::key`) and all who connect give possible answers;
see `C65_keys_collide` and `C65_improper_is_missing`. -/
theorem C65_complete_partial {env : Env} {net : Net} {es : List Event} {cfg : List (String × Nat)} {s s' : St} {l : List Sec}
    (h : createIPSecondaries env net es cfg s = (.ok l, s'))
    (hkey : ∀ a ∈ cfg, ∀ ip port c, Event.connection ip port c ∈ es → key ip port = key a.1 a.2 → (ip, port) = a)
    (hprop : ∀ ip port a b k t, Event.connection ip port (.info a b k t) ∈ es → Proper env a b k t) :
    ∀ a ∈ cfg, ∃ x ∈ l, (x.ip, x.port) = a := by
  obtain ⟨known, r, s1, l2, h1, h2, h3, rfl⟩ := createIP_ok h
  obtain ⟨i1, -, -⟩ := connectAll_ok h2
  obtain ⟨-, w2⟩ := wait_ok h3
  intro a ha
  rcases i1 a ha with ⟨x, hx, hs⟩ | ⟨hk, -, -⟩
  · refine ⟨x, List.mem_append_left _ hx, ?_⟩
    have : x.ip = a.1 ∧ x.port = a.2 := by
      rcases hs with ⟨k, -, -, ht⟩ | ⟨-, n, -, ht⟩
      · exact ht.addr
      · exact ht.addr
    rw [this.1, this.2]
  · obtain ⟨ip, port, c, hc, e, ⟨x, hx, ht⟩ | ⟨a', b, k, t, rfl, hn⟩⟩ := w2 _ hk
    · refine ⟨x, List.mem_append_right _ hx, ?_⟩
      rw [ht.addr.1, ht.addr.2]
      exact hkey a ha ip port c hc e
    · exact (hn (hprop _ _ _ _ _ _ hc)).elim

/-- Full statement: there is no Secondary but at the configured addresses. It holds if no one else
connects to the daemon while it waits; see `C65_stranger_added`. -/
theorem C65_only_partial {env : Env} {net : Net} {es : List Event} {cfg : List (String × Nat)} {s s' : St} {l : List Sec}
    (h : createIPSecondaries env net es cfg s = (.ok l, s')) (hes : ∀ ip port c, Event.connection ip port c ∈ es → (ip, port) ∈ cfg) :
    ∀ x ∈ l, (x.ip, x.port) ∈ cfg := by
  obtain ⟨known, r, s1, l2, h1, h2, h3, rfl⟩ := createIP_ok h
  obtain ⟨-, i2, -⟩ := connectAll_ok h2
  obtain ⟨w1, -⟩ := wait_ok h3
  intro x hx
  rcases List.mem_append.1 hx with hx | hx
  · exact (i2 x hx).1
  · obtain ⟨c, hc, -⟩ := w1 x hx
    exact hes _ _ c hc

/-- Where every Secondary has its identity from: a record of the storage, the answer at its address, or
the one who connected from there. -/
theorem C65_identity {env : Env} {net : Net} {es : List Event} {cfg : List (String × Nat)} {s s' : St} {l : List Sec}
    (h : createIPSecondaries env net es cfg s = (.ok l, s')) : ∀ x ∈ l,
      (∃ k, IsKnown s k ∧ Took env net x.ip x.port k x) ∨
      (∃ n, net n x.ip x.port ≠ .refused ∧ Told env x.ip x.port (net n x.ip x.port) x) ∨
      ∃ c, Event.connection x.ip x.port c ∈ es ∧ Told env x.ip x.port c x := by
  obtain ⟨known, r, s1, l2, h1, h2, h3, rfl⟩ := createIP_ok h
  obtain ⟨-, i2, -⟩ := connectAll_ok h2
  obtain ⟨w1, -⟩ := wait_ok h3
  intro x hx
  rcases List.mem_append.1 hx with hx | hx
  · rcases (i2 x hx).2 with ⟨k, hk, -, ht⟩ | ⟨-, n, hn, ht⟩
    · exact .inl ⟨k, (getSecondaries_ok h1 k).1 hk, ht⟩
    · exact .inr (.inl ⟨n, hn, ht⟩)
  · exact .inr (.inr (w1 x hx))

/-- The daemon does not start without a configured Secondary that is neither known nor to be reached and
does not connect. -/
theorem C65_refuses {env : Env} {net : Net} {es : List Event} {cfg : List (String × Nat)} {s : St} {ip : String} {port : Nat}
    (ha : (ip, port) ∈ cfg) (hno : ∀ k, IsKnown s k → ¬ RecordedAt env k ip port)
    (hold : ∀ k, IsKnown s k → k.extra = "" → ∃ k', IsKnown s k' ∧ k' ≠ k)
    (hnet : ∀ n, net n ip port = .refused)
    (hes : ∀ ip' port' c, Event.connection ip' port' c ∈ es → key ip' port' ≠ key ip port) (l : List Sec) (s' : St) :
    createIPSecondaries env net es cfg s ≠ (.ok l, s') := by
  intro h
  obtain ⟨known, r, s1, l2, h1, h2, h3, rfl⟩ := createIP_ok h
  obtain ⟨i1, -, -⟩ := connectAll_ok h2
  obtain ⟨-, w2⟩ := wait_ok h3
  rcases i1 _ ha with ⟨x, hx, ⟨k, hk, hrec, ht⟩ | ⟨-, n, hn, -⟩⟩ | ⟨hk, -, -⟩
  · have hk := (getSecondaries_ok h1 k).1 hk
    rcases hrec with hrec | ⟨-, hone, he⟩
    · exact hno k hk hrec
    · obtain ⟨k', hk', hne⟩ := hold k hk he
      have := (getSecondaries_ok h1 k').2 hk'
      rw [hone] at this
      exact hne (List.mem_singleton.1 this)
  · exact hn (hnet n)
  · obtain ⟨ip', port', c, hc, e, -⟩ := w2 _ hk
    exact hes _ _ _ hc e

/-- All Secondaries are added, with different serials, or the daemon does not start. -/
theorem addAll_ok {a b m : List (String × Prov.Secondary)} (h : addAll a b = .ok m) :
    m = a ++ b ∧ (∀ x ∈ b, ∀ y ∈ a, y.1 ≠ x.1) ∧ (b.map Prod.fst).Nodup := by
  induction b generalizing a with
  | nil => simp only [addAll, Except.ok.injEq] at h; simp [h]
  | cons x xs ih =>
    simp only [addAll] at h
    split at h
    · simp at h
    · rename_i hx
      obtain ⟨rfl, h2, h3⟩ := ih h
      have hx : ∀ y ∈ a, y.1 ≠ x.1 := fun y hy e => hx (List.any_eq_true.2 ⟨y, hy, by simp [e]⟩)
      refine ⟨by simp, ?_, ?_⟩
      · intro z hz
        rcases List.mem_cons.1 hz with rfl | hz
        · exact hx
        · exact fun y hy => h2 z hz y (List.mem_append_left _ hy)
      · simp only [List.map_cons, List.nodup_cons, List.mem_map, not_exists, not_and]
        refine ⟨fun z hz e => h2 z hz x (by simp) e.symm, h3⟩

theorem nodup_append' {α : Type} {a b : List α} (h1 : a.Nodup) (h2 : b.Nodup) (h3 : ∀ x ∈ a, x ∉ b) : (a ++ b).Nodup :=
  List.nodup_append.2 ⟨h1, h2, fun x hx _ hy e => h3 x hx (e ▸ hy)⟩

/-- After the start, the client has exactly the IP Secondaries and the virtual ones, with different
serials. -/
theorem C65_members {env : Env} {net : Net} {es : List Event} {cfg : List (String × Nat)} {virt m : List (String × Prov.Secondary)}
    {s s' : St} (h : initSecondaries env net es (some cfg) virt s = (.ok m, s')) :
    ∃ l, createIPSecondaries env net es cfg s = (.ok l, s') ∧
      m = l.map (fun x => (x.serial, ⟨x.hwId, "IP", x.key⟩)) ++ virt ∧ (m.map Prod.fst).Nodup := by
  unfold initSecondaries at h
  obtain ⟨l, s1, h1, h2⟩ := M.bind_ok.1 h
  obtain ⟨m1, s2, h3, h4⟩ := M.bind_ok.1 h2
  simp only [M.lift_eq, Prod.mk.injEq] at h3 h4
  obtain ⟨h3, rfl⟩ := h3
  obtain ⟨h4, rfl⟩ := h4
  obtain ⟨rfl, -, a3⟩ := addAll_ok h3
  obtain ⟨rfl, b2, b3⟩ := addAll_ok h4
  refine ⟨l, h1, by simp [member], ?_⟩
  rw [List.map_append]
  refine nodup_append' (by simpa using a3) b3 ?_
  intro x hx hv
  obtain ⟨y, hy, rfl⟩ := List.mem_map.1 hx
  obtain ⟨z, hz, e⟩ := List.mem_map.1 hv
  exact b2 z hz y hy e.symm

/-- A well-formed address of the configuration means what it says. -/
theorem C65_address {ip : List Char} {port : Nat} (hip : ':' ∉ ip) (hport : port < 65536) :
    getIPAndPort (ip ++ ':' :: (toString port).toList) = .ok (ip, port) := by
  have hc : cut ':' (ip ++ ':' :: (toString port).toList) = some (ip, (toString port).toList) := by
    induction ip with
    | nil => simp [cut]
    | cons c cs ih =>
      simp only [List.mem_cons, not_or] at hip
      simp only [List.cons_append, cut, if_neg (Ne.symm hip.1), ih hip.2, Option.map_some]
  have hs : stoul (toString port).toList = .ok port := by
    have e : (toString port).toList = Nat.toDigits 10 port := by
      show (Nat.repr port).toList = _
      simp [Nat.repr]
    rw [e]
    have hd : ∀ c ∈ Nat.toDigits 10 port, c.isDigit = true := fun c hc => Nat.isDigit_of_mem_toDigits (by decide) (by decide) hc
    have hne : Nat.toDigits 10 port ≠ [] := Nat.toDigits_ne_nil
    have hv : Nat.ofDigitChars 10 (Nat.toDigits 10 port) 0 = port := Nat.ofDigitChars_toDigits (by decide) (by decide)
    have ht : leadingDigits (Nat.toDigits 10 port) = Nat.toDigits 10 port := takeWhile_all hd
    cases hl : Nat.toDigits 10 port with
    | nil => exact (hne hl).elim
    | cons c cs =>
      have hc := hd c (by rw [hl]; exact List.mem_cons_self)
      have hs := digit_not_space hc
      have hm : c ≠ '-' := by rintro rfl; revert hc; decide
      have hp : c ≠ '+' := by rintro rfl; revert hc; decide
      rw [hl] at ht hv
      simp only [stoul, List.dropWhile_cons, hs, Bool.false_eq_true, if_false, signOf, if_neg hm, if_neg hp]
      simp only [ht, if_false, hv, reduceCtorEq]
      rw [if_neg (by omega)]
  unfold getIPAndPort
  rw [hc]
  simp only [hs, exc_bind_of_ok, exc_pure_eq, Except.ok.injEq, Prod.mk.injEq, true_and]
  omega

/-! ## What is written down -/

/-- The address of a Secondary is written down in the state. -/
def Written (env : Env) (s : St) (x : Sec) : Prop :=
  s.extra.lookup x.serial = some (env.canon (address x.ip x.port))

theorem connectOne_extra {env : Env} {net : Net} {known : List Known} {single : Bool} {ip : String} {port : Nat} {s s' : St}
    {o : Option Sec} (h : connectOne env net known single ip port s = (.ok o, s'))
    (hsame : ∀ k ∈ known, RecordedAt env k ip port ∨ (known = [k] ∧ k.extra = "") → ∀ x, Took env net ip port k x → x.serial = k.serial) :
    (∀ e, (∀ x, o = some x → x.serial ≠ e) → s'.extra.lookup e = s.extra.lookup e) ∧
    (∀ x, o = some x → Written env s' x ∨
      (s'.extra = s.extra ∧ ∃ k ∈ known, k.serial = x.serial ∧ RecordedAt env k x.ip x.port)) := by
  rcases connectOne_ok h with ⟨k, hk, hr, x, rfl, ht, he⟩ | ⟨-, ⟨k, hk, -, hx, x, rfl, ht, he⟩ | ⟨n, -, rfl, he⟩ | ⟨n, x, -, rfl, ht, he⟩⟩
  · refine ⟨fun e _ => by rw [he], ?_⟩
    intro y hy
    obtain rfl := Option.some.inj hy
    rw [ht.addr.1, ht.addr.2]
    exact .inr ⟨he, k, hk, (hsame k hk (.inl hr) _ ht).symm, hr⟩
  · have e1 := hsame k (by rw [hk]; simp) (.inr ⟨hk, hx⟩) _ ht
    refine ⟨fun e hne => ?_, ?_⟩
    · rw [he]
      exact Prov.lookup_put_of_ne (fun c => hne x rfl (by rw [e1, c]))
    · intro y hy
      obtain rfl := Option.some.inj hy
      refine .inl ?_
      unfold Written
      rw [he, e1, ht.addr.1, ht.addr.2]
      exact Prov.lookup_put_self
  · exact ⟨fun e _ => by rw [he], by simp⟩
  · refine ⟨fun e hne => ?_, ?_⟩
    · rw [he]
      exact Prov.lookup_put_of_ne (fun c => hne x rfl c.symm)
    · intro y hy
      obtain rfl := Option.some.inj hy
      refine .inl ?_
      unfold Written
      rw [he, ht.addr.1, ht.addr.2]
      exact Prov.lookup_put_self

theorem connectAll_extra {env : Env} {net : Net} {known : List Known} {single : Bool} {cfg : List (String × Nat)} {s s' : St}
    {r : List Sec × List String} (h : connectAll env net known single cfg s = (.ok r, s'))
    (hsame : ∀ a ∈ cfg, ∀ k ∈ known, RecordedAt env k a.1 a.2 ∨ (known = [k] ∧ k.extra = "") →
      ∀ x, Took env net a.1 a.2 k x → x.serial = k.serial) :
    (∀ e, e ∉ r.1.map Sec.serial → s'.extra.lookup e = s.extra.lookup e) ∧
    ((r.1.map Sec.serial).Nodup → ∀ x ∈ r.1, Written env s' x ∨
      (s'.extra.lookup x.serial = s.extra.lookup x.serial ∧ ∃ k ∈ known, k.serial = x.serial ∧ RecordedAt env k x.ip x.port)) := by
  induction cfg generalizing s s' r with
  | nil =>
    simp only [connectAll, M.pure_eq, Prod.mk.injEq, Except.ok.injEq] at h
    obtain ⟨rfl, rfl⟩ := h
    simp
  | cons a cfg ih =>
    unfold connectAll at h
    obtain ⟨o, s1, h1, h2⟩ := M.bind_ok.1 h
    obtain ⟨r', s2, h3, h4⟩ := M.bind_ok.1 h2
    obtain ⟨i1, i2⟩ := ih h3 (fun b hb => hsame b (List.mem_cons_of_mem _ hb))
    obtain ⟨j1, j2⟩ := connectOne_extra h1 (hsame a List.mem_cons_self)
    cases o with
    | none =>
      simp only [M.pure_eq, Prod.mk.injEq, Except.ok.injEq] at h4
      obtain ⟨rfl, rfl⟩ := h4
      refine ⟨fun e he => by rw [i1 e he, j1 e (by simp)], ?_⟩
      intro hnd x hx
      rcases i2 hnd x hx with hw | ⟨e1, hk⟩
      · exact .inl hw
      · exact .inr ⟨by rw [e1, j1 _ (by simp)], hk⟩
    | some y =>
      simp only [M.pure_eq, Prod.mk.injEq, Except.ok.injEq] at h4
      obtain ⟨rfl, rfl⟩ := h4
      refine ⟨fun e he => ?_, ?_⟩
      · simp only [List.map_cons, List.mem_cons, not_or] at he
        rw [i1 e he.2]
        exact j1 e (fun x hx => by obtain rfl := Option.some.inj hx; exact fun c => he.1 c.symm)
      · intro hnd x hx
        simp only [List.map_cons, List.nodup_cons] at hnd
        rcases List.mem_cons.1 hx with rfl | hx
        · have e0 := i1 x.serial hnd.1
          rcases j2 x rfl with hw | ⟨e1, hk⟩
          · refine .inl ?_
            unfold Written at hw ⊢
            rw [e0]; exact hw
          · exact .inr ⟨by rw [e0, e1], hk⟩
        · have hne : y.serial ≠ x.serial := fun c => hnd.1 (c ▸ List.mem_map_of_mem hx)
          rcases i2 hnd.2 x hx with hw | ⟨e1, hk⟩
          · exact .inl hw
          · refine .inr ⟨?_, hk⟩
            rw [e1]
            exact j1 _ (fun z hz => by obtain rfl := Option.some.inj hz; exact hne)

theorem wait_extra {env : Env} {w : List String} {es : List Event} {s s' : St} {l : List Sec}
    (h : wait env w es s = (.ok l, s')) :
    (∀ e, e ∉ l.map Sec.serial → s'.extra.lookup e = s.extra.lookup e) ∧
    ((l.map Sec.serial).Nodup → ∀ x ∈ l, Written env s' x) := by
  induction es generalizing w s s' l with
  | nil =>
    cases w with
    | nil =>
      simp only [wait, M.pure_eq, Prod.mk.injEq, Except.ok.injEq] at h
      obtain ⟨rfl, rfl⟩ := h
      simp
    | cons y w => simp [wait] at h
  | cons e es ih =>
    cases w with
    | nil =>
      simp only [wait, M.pure_eq, Prod.mk.injEq, Except.ok.injEq] at h
      obtain ⟨rfl, rfl⟩ := h
      simp
    | cons y w =>
      cases e with
      | failure => simp [wait] at h
      | connection ip port c =>
        unfold wait at h
        obtain ⟨l1, s1, h1, h2⟩ := M.bind_ok.1 h
        obtain ⟨l2, s2, h3, h4⟩ := M.bind_ok.1 h2
        simp only [M.pure_eq, Prod.mk.injEq, Except.ok.injEq] at h4
        obtain ⟨rfl, rfl⟩ := h4
        obtain ⟨i1, i2⟩ := ih h3
        rcases welcome_ok h1 with ⟨x, rfl, ht, he⟩ | ⟨rfl, he, -⟩
        · refine ⟨fun e hne => ?_, ?_⟩
          · simp only [List.singleton_append, List.map_cons, List.mem_cons, not_or] at hne
            rw [i1 e hne.2, he]
            exact Prov.lookup_put_of_ne hne.1
          · intro hnd z hz
            simp only [List.singleton_append, List.map_cons, List.nodup_cons] at hnd
            rcases List.mem_cons.1 hz with rfl | hz
            · unfold Written
              rw [i1 _ hnd.1, he, ht.addr.1, ht.addr.2]
              exact Prov.lookup_put_self
            · exact i2 hnd.2 z hz
        · refine ⟨fun e hne => ?_, i2⟩
          rw [i1 e hne, he]

/-- After a start the address of every Secondary is written down, if those that were known have kept their
serials. -/
theorem createIP_extra {env : Env} {net : Net} {es : List Event} {cfg : List (String × Nat)} {s s' : St} {l : List Sec}
    (h : createIPSecondaries env net es cfg s = (.ok l, s')) (hnd : (l.map Sec.serial).Nodup)
    (hround : ∀ ip port, env.parse (env.canon (address ip port)) = address ip port)
    (hsame : ∀ a ∈ cfg, ∀ k, IsKnown s k → RecordedAt env k a.1 a.2 ∨ ((∀ k', IsKnown s k' → k' = k) ∧ k.extra = "") →
      ∀ x, Took env net a.1 a.2 k x → x.serial = k.serial) :
    (∀ x ∈ l, ∃ kvs, env.parse ((s'.extra.lookup x.serial).getD "") = .obj kvs ∧ kvs.lookup "ip" = some (.str x.ip) ∧
      kvs.lookup "port" = some (.int x.port)) ∧
    ∀ e, e ∉ l.map Sec.serial → s'.extra.lookup e = s.extra.lookup e := by
  obtain ⟨known, r, s1, l2, h1, h2, h3, rfl⟩ := createIP_ok h
  obtain ⟨i1, i2⟩ := connectAll_extra h2 (fun a ha k hk hr x hx =>
    hsame a ha k ((getSecondaries_ok h1 k).1 hk) (hr.imp id (fun hr => ⟨fun k' hk' => by
      have := (getSecondaries_ok h1 k').2 hk'
      rw [hr.1] at this
      exact List.mem_singleton.1 this, hr.2⟩)) x hx)
  obtain ⟨w1, w2⟩ := wait_extra h3
  rw [List.map_append, List.nodup_append] at hnd
  obtain ⟨n1, n2, n3⟩ := hnd
  have hW : ∀ x, Written env s' x → ∃ kvs, env.parse ((s'.extra.lookup x.serial).getD "") = .obj kvs ∧ kvs.lookup "ip" = some (.str x.ip) ∧
      kvs.lookup "port" = some (.int x.port) := by
    intro x hw
    rw [hw, Option.getD_some, hround]
    exact ⟨_, rfl, rfl, rfl⟩
  refine ⟨?_, ?_⟩
  · intro x hx
    rcases List.mem_append.1 hx with hx | hx
    · have e0 := w1 x.serial (fun c => n3 _ (List.mem_map_of_mem hx) _ c rfl)
      rcases i2 n1 x hx with hw | ⟨e1, k, hk, hks, hr⟩
      · apply hW
        unfold Written at hw ⊢
        rw [e0]; exact hw
      · rw [e0, e1, ← hks, ← ((getSecondaries_ok h1 k).1 hk).2.1]
        exact hr
    · exact hW x (w2 n2 x hx)
  · intro e he
    simp only [List.map_append, List.mem_append, not_or] at he
    rw [w1 e he.2, i1 e he.1]

/-! ## The next start -/

/-- What is in the storage can be read. -/
structure Readable (env : Env) (s : St) : Prop where
  rows : ∀ e ∈ s.store.ecus.tail, 1 ≤ e.1.utf8ByteSize ∧ e.1.utf8ByteSize ≤ 64 ∧ e.2.utf8ByteSize ≤ 200 ∧
    ∀ row, s.store.secs.lookup e.1 = some row → row.keyType ≠ "" →
      Prov.keyTypeOf row.keyType = .rsa2048 ∨ Prov.keyTypeOf row.keyType = .rsa3072 ∨ Prov.keyTypeOf row.keyType = .rsa4096 →
      env.rsaType row.key = Prov.keyTypeOf row.keyType
  extra : ∀ e ∈ s.store.ecus.tail, env.parse ((s.extra.lookup e.1).getD "") = .null ∨
    ∃ kvs, env.parse ((s.extra.lookup e.1).getD "") = .obj kvs

theorem knownOf_goes {env : Env} {s : St} {e : String × String} (h : 1 ≤ e.1.utf8ByteSize ∧ e.1.utf8ByteSize ≤ 64 ∧
    e.2.utf8ByteSize ≤ 200 ∧ ∀ row, s.store.secs.lookup e.1 = some row → row.keyType ≠ "" →
      Prov.keyTypeOf row.keyType = .rsa2048 ∨ Prov.keyTypeOf row.keyType = .rsa3072 ∨ Prov.keyTypeOf row.keyType = .rsa4096 →
      env.rsaType row.key = Prov.keyTypeOf row.keyType) : ∃ k, knownOf env s e = .ok k := by
  obtain ⟨h1, h2, h3, h4⟩ := h
  unfold knownOf
  rw [mkEcuSerial_ok.2 ⟨h1, h2, rfl⟩, exc_bind_of_ok, mkHwId_ok.2 ⟨h3, rfl⟩, exc_bind_of_ok]
  have : ∃ k, rowKey env ((s.store.secs.lookup e.1).getD {}) = .ok k := by
    unfold rowKey
    cases hr : s.store.secs.lookup e.1 with
    | none => exact ⟨_, if_pos rfl⟩
    | some row =>
      by_cases hk : row.keyType = ""
      · exact ⟨_, by rw [Option.getD_some, if_pos hk]⟩
      · exact ⟨_, by rw [Option.getD_some, if_neg hk]; exact makeKey_ok.2 ⟨h4 row hr hk, rfl⟩⟩
  obtain ⟨k, hk⟩ := this
  exact ⟨_, by dsimp only; rw [hk, exc_bind_of_ok]; rfl⟩

theorem knownOfAll_goes {env : Env} {s : St} {es : List (String × String)} (h : ∀ e ∈ es, ∃ k, knownOf env s e = .ok k) :
    ∃ l, knownOfAll env s es = .ok l := by
  induction es with
  | nil => exact ⟨[], rfl⟩
  | cons e es ih =>
    obtain ⟨k, hk⟩ := h e List.mem_cons_self
    obtain ⟨l, hl⟩ := ih (fun e he => h e (List.mem_cons_of_mem _ he))
    exact ⟨k :: l, by unfold knownOfAll; rw [hk, exc_bind_of_ok, hl, exc_bind_of_ok]; rfl⟩

theorem get_goes {j : Json} (h : j = .null ∨ ∃ kvs, j = .obj kvs) (x : String) : ∃ v, j.get x = .ok v := by
  rcases h with rfl | ⟨kvs, rfl⟩ <;> exact ⟨_, rfl⟩

theorem findAt_goes {env : Env} {ip : String} {port : Nat} {l : List Known}
    (h : ∀ k ∈ l, env.parse k.extra = .null ∨ ∃ kvs, env.parse k.extra = .obj kvs) : ∃ o, findAt env ip port l = .ok o := by
  induction l with
  | nil => exact ⟨none, rfl⟩
  | cons k ks ih =>
    obtain ⟨o, ho⟩ := ih (fun k hk => h k (List.mem_cons_of_mem _ hk))
    have : ∃ b, isAt env ip port k = .ok b := by
      unfold isAt
      obtain ⟨v, hv⟩ := get_goes (h k List.mem_cons_self) "ip"
      obtain ⟨w, hw⟩ := get_goes (h k List.mem_cons_self) "port"
      dsimp only
      rw [hv, exc_bind_of_ok]
      by_cases hs : v.isStr ip = true
      · rw [if_pos hs, hw, exc_bind_of_ok]; exact ⟨_, rfl⟩
      · rw [if_neg hs]; exact ⟨_, rfl⟩
    obtain ⟨b, hb⟩ := this
    unfold findAt
    rw [hb, exc_bind_of_ok]
    cases b with
    | true => exact ⟨some k, rfl⟩
    | false => exact ⟨o, ho⟩

/-- What a Secondary that is known must not do for the start to go on: accept a connection and not answer. -/
def Answers (c : Contact) : Prop := c = .refused ∨ ∃ a b k t, c = .info a b k t ∧ t ≠ .unknown

theorem connectAndCheck_goes {env : Env} {ip : String} {port : Nat} {k : Known} {c : Contact} (h : Answers c) :
    ∃ x, connectAndCheck env ip port k c = some x := by
  unfold connectAndCheck
  cases hc : connectAndCreate env ip port c with
  | error e => exact ⟨_, rfl⟩
  | ok o =>
    rcases connectAndCreate_ok.1 hc with ⟨-, rfl⟩ | ⟨hn, x, rfl, ht⟩
    · exact ⟨_, rfl⟩
    · rcases h with h | ⟨a, b, k', t, rfl, hu⟩
      · exact (hn h).elim
      · cases ht with
        | info _ _ _ _ _ => exact ⟨_, if_neg hu⟩
        | nothing _ h => simp at h

theorem connectAll_known {env : Env} {net : Net} {known : List Known} {single : Bool} {cfg : List (String × Nat)} {s : St}
    (hx : ∀ k ∈ known, env.parse k.extra = .null ∨ ∃ kvs, env.parse k.extra = .obj kvs)
    (hrec : ∀ a ∈ cfg, ∃ k ∈ known, RecordedAt env k a.1 a.2) (hnet : ∀ a ∈ cfg, ∀ n, Answers (net n a.1 a.2)) :
    ∃ l s', connectAll env net known single cfg s = (.ok (l, []), s') ∧ l.map (fun x => (x.ip, x.port)) = cfg ∧
      (∀ x ∈ l, ∃ k ∈ known, RecordedAt env k x.ip x.port ∧ Took env net x.ip x.port k x) ∧ s'.store = s.store ∧ s'.extra = s.extra := by
  induction cfg generalizing s with
  | nil => exact ⟨[], s, rfl, rfl, by simp, rfl, rfl⟩
  | cons a cfg ih =>
    obtain ⟨o, ho⟩ := findAt_goes (ip := a.1) (port := a.2) hx
    cases o with
    | none =>
      obtain ⟨k, hk, hr⟩ := hrec a List.mem_cons_self
      exact (findAt_none ho k hk hr).elim
    | some k =>
      obtain ⟨hk, hr⟩ := findAt_some ho
      obtain ⟨x, hc⟩ := connectAndCheck_goes (env := env) (ip := a.1) (port := a.2) (k := k) (hnet a List.mem_cons_self s.contacts)
      have ht := connectAndCheck_some hc
      have h1 : connectKnown env net a.1 a.2 k s = (.ok x, { s with contacts := s.contacts + 1 }) := by
        unfold connectKnown
        rw [M.run_bind (show contact net a.1 a.2 s = (.ok (net s.contacts a.1 a.2), { s with contacts := s.contacts + 1 }) from rfl), hc]
        rfl
      have h2 : connectOne env net known single a.1 a.2 s = (.ok (some x), { s with contacts := s.contacts + 1 }) := by
        unfold connectOne
        rw [M.run_bind (show lift (findAt env a.1 a.2 known) s = (.ok (some k), s) by rw [ho]; rfl)]
        dsimp only
        rw [M.run_bind h1]
        rfl
      obtain ⟨l, s', i1, i2, i3, i4, i5⟩ := ih (s := { s with contacts := s.contacts + 1 }) (fun b hb => hrec b (List.mem_cons_of_mem _ hb))
        (fun b hb => hnet b (List.mem_cons_of_mem _ hb))
      refine ⟨x :: l, s', ?_, ?_, ?_, i4, i5⟩
      · unfold connectAll
        rw [M.run_bind h2, M.run_bind i1]
        rfl
      · rw [List.map_cons, i2, ht.addr.1, ht.addr.2]
      · intro y hy
        rcases List.mem_cons.1 hy with rfl | hy
        · rw [ht.addr.1, ht.addr.2]
          exact ⟨k, hk, hr, ht⟩
        · exact i3 y hy

/-- A daemon that has all configured addresses on record starts, whether its Secondaries can be reached or
not, and writes nothing. -/
theorem C65_starts {env : Env} {net : Net} {es : List Event} {cfg : List (String × Nat)} {s : St} (hread : Readable env s)
    (hrec : ∀ a ∈ cfg, ∃ k, IsKnown s k ∧ RecordedAt env k a.1 a.2) (hnet : ∀ a ∈ cfg, ∀ n, Answers (net n a.1 a.2)) :
    ∃ l s', createIPSecondaries env net es cfg s = (.ok l, s') ∧ l.map (fun x => (x.ip, x.port)) = cfg ∧
      (∀ x ∈ l, ∃ k, IsKnown s k ∧ RecordedAt env k x.ip x.port ∧ Took env net x.ip x.port k x) ∧
      s'.store = s.store ∧ s'.extra = s.extra := by
  obtain ⟨known, hk⟩ : ∃ l, getSecondaries env s = .ok l := knownOfAll_goes (fun e he => knownOf_goes (hread.rows e he))
  have hx : ∀ k ∈ known, env.parse k.extra = .null ∨ ∃ kvs, env.parse k.extra = .obj kvs := by
    intro k hm
    have := (getSecondaries_ok hk k).1 hm
    rw [this.2.1]
    exact hread.extra _ this.1
  obtain ⟨l, s', h1, h2, h3, h4, h5⟩ := connectAll_known (env := env) (net := net) (known := known) (single := cfg.length == 1) (cfg := cfg)
    (s := s) hx (fun a ha => let ⟨k, a, b⟩ := hrec a ha; ⟨k, (getSecondaries_ok hk k).2 a, b⟩) hnet
  refine ⟨l, s', ?_, h2, ?_, h4, h5⟩
  · unfold createIPSecondaries
    rw [M.run_bind (show gets id s = (.ok s, s) from rfl), M.run_bind (show lift (getSecondaries env s) s = (.ok known, s) by rw [hk]; rfl),
      M.run_bind h1]
    cases es with
    | nil => simp [wait]
    | cons e es => simp [wait]
  · intro x hx
    obtain ⟨k, hk', hr, ht⟩ := h3 x hx
    exact ⟨k, (getSecondaries_ok hk k).1 hk', hr, ht⟩

/-- What has to hold for the Secondaries of one start to be remembered: identities are possible ones, not
those of the Primary, and those on record are the same as now. -/
structure Steady (env : Env) (penv : Prov.Env) (net : Net) (pcfg : Prov.Config) (cfg : List (String × Nat))
    (virt m : List (String × Prov.Secondary)) (s s1 : St) : Prop where
  round : ∀ ip port, env.parse (env.canon (address ip port)) = address ip port
  possible : ∀ y ∈ m, 1 ≤ y.1.utf8ByteSize ∧ y.1.utf8ByteSize ≤ 64 ∧ y.2.hwId.utf8ByteSize ≤ 200 ∧ y.2.key.type ≠ .unknown ∧
    (y.2.key.type = .rsa2048 ∨ y.2.key.type = .rsa3072 ∨ y.2.key.type = .rsa4096 → env.rsaType y.2.key.value = y.2.key.type)
  primary : ∀ y ∈ m, ∀ k, y.1 ≠ if pcfg.primarySerial = "" then penv.keyId k else pcfg.primarySerial
  before : ∀ e, s1.store.ecus.head? = some e → ∀ y ∈ m, y.1 ≠ e.1
  table : (s1.store.ecus.map Prod.fst).Nodup
  agrees : ∀ y ∈ m, ∀ row, Prov.Complete s1.store y.1 row → row.key = y.2.key.value ∧ Prov.keyTypeOf row.keyType = y.2.key.type
  serials : ∀ a ∈ cfg, ∀ k, IsKnown s k → RecordedAt env k a.1 a.2 ∨ ((∀ k', IsKnown s k' → k' = k) ∧ k.extra = "") →
    ∀ x, Took env net a.1 a.2 k x → x.serial = k.serial
  virtual : ∀ v ∈ virt, s.extra.lookup v.1 = none
  nothing : env.parse "" = .null

theorem keyTypeOf_ne {x : String} (h : Prov.keyTypeOf x ≠ .unknown) : x ≠ "" := by
  rintro rfl
  exact h rfl

/-- What a start with registration leaves is remembered: the next start has the same Secondaries, in the
order of the configuration, though none of them can be reached. -/
theorem C65_again {σ : Type} {env : Env} {penv : Prov.Env} {server : Prov.Server σ} {net net' : Net} {es es' : List Event}
    {cfg : List (String × Nat)} {virt m : List (String × Prov.Secondary)} {s s1 : St} {x : Prov.Start} {srv : σ} {p : Prov.St σ}
    (h1 : initSecondaries env net es (some cfg) virt s = (.ok m, s1)) (hx : x.secondaries = m)
    (h2 : Prov.run penv server x s1.store srv = (.ok (), p)) (hst : Steady env penv net x.cfg cfg virt m s s1)
    (hkey : ∀ a ∈ cfg, ∀ ip port c, Event.connection ip port c ∈ es → key ip port = key a.1 a.2 → (ip, port) = a)
    (hprop : ∀ ip port a b k t, Event.connection ip port (.info a b k t) ∈ es → Proper env a b k t)
    (hnet : ∀ a ∈ cfg, ∀ n, net' n a.1 a.2 = .refused) (left contacts : Nat) :
    ∃ l, createIPSecondaries env net es cfg s = (.ok l, s1) ∧
    ∃ l' s3, createIPSecondaries env net' es' cfg { store := p.store, extra := s1.extra, left := left, contacts := contacts } = (.ok l', s3) ∧
      l'.map (fun x => (x.ip, x.port)) = cfg ∧ ∀ x ∈ l', x ∈ l := by
  obtain ⟨l, hl, hm, hnd⟩ := C65_members h1
  refine ⟨l, hl, ?_⟩
  have hser : (l.map Sec.serial).Nodup := by
    rw [hm, List.map_append, List.nodup_append] at hnd
    simpa [Function.comp_def] using hnd.1
  have hcomplete := C65_complete_partial hl hkey hprop
  obtain ⟨hwr, hfr⟩ := createIP_extra hl hser hst.round hst.serials
  have hconf : ∀ q, ((Prov.configured penv x.cfg x.secondaries q).map Prod.fst).Nodup := by
    intro q
    rw [hx]
    simp only [Prov.configured, List.map_cons, List.map_map, List.nodup_cons]
    refine ⟨?_, by simpa [Function.comp_def] using hnd⟩
    intro hc
    obtain ⟨y, hy, e⟩ := List.mem_map.1 hc
    exact hst.primary y hy q e
  obtain ⟨c1, k, c2⟩ := Prov.C41_secondaries x s1.store srv (by rw [h2]) hconf
  rw [h2] at c1 c2
  simp only at c1 c2
  rw [hx] at c1 c2
  -- the rows
  have hrow : ∀ y ∈ m, ∃ row, p.store.secs.lookup y.1 = some row ∧ row.key = y.2.key.value ∧ Prov.keyTypeOf row.keyType = y.2.key.type := by
    intro y hy
    obtain ⟨row, r1, r2, r3⟩ := c1 y hy
    refine ⟨row, r1, ?_⟩
    by_cases hc : ∃ old, Prov.Complete s1.store y.1 old
    · obtain ⟨old, ho⟩ := hc
      obtain ⟨-, a, b⟩ := r2 old ho
      obtain ⟨a', b'⟩ := hst.agrees y hy old ho
      exact ⟨a.trans a', b.trans b'⟩
    · exact (r3 (fun old ho => hc ⟨old, ho⟩)).2 (hst.possible y hy).2.2.2.1
  have htail : ∀ e, e ∈ p.store.ecus.tail ↔ ∃ y ∈ m, e = (y.1, y.2.hwId) := by
    intro e
    rcases c2 with c2 | ⟨c2, hne, hsame⟩
    · rw [c2]
      simp only [Prov.configured, List.tail_cons, List.mem_map]
      constructor
      · rintro ⟨y, hy, rfl⟩; exact ⟨y, hy, rfl⟩
      · rintro ⟨y, hy, rfl⟩; exact ⟨y, hy, rfl⟩
    · rw [c2]
      cases hec : s1.store.ecus with
      | nil => exact (hne hec).elim
      | cons d ds =>
        have hd := hst.before d (by rw [hec]; rfl)
        have hmem : ∀ e, e ∈ d :: ds ↔ e ∈ Prov.configured penv x.cfg m k := by rw [← hec]; exact hsame
        have hd2 : ∀ y ∈ m, d ≠ (y.1, y.2.hwId) := fun y hy c => hd y hy (by rw [c])
        simp only [List.tail_cons]
        have hp : d = (Prov.configured penv x.cfg m k).headD ("", "") := by
          have := (hmem d).1 List.mem_cons_self
          simp only [Prov.configured, List.mem_cons, List.mem_map] at this
          rcases this with h | ⟨y, hy, e⟩
          · simpa [Prov.configured] using h
          · exact (hd2 y hy e.symm).elim
        constructor
        · intro he
          have := (hmem e).1 (List.mem_cons_of_mem _ he)
          simp only [Prov.configured, List.mem_cons, List.mem_map] at this
          rcases this with h | ⟨y, hy, e'⟩
          · have hn := hst.table
            rw [hec, List.map_cons, List.nodup_cons] at hn
            refine (hn.1 ?_).elim
            have e1 : e = d := by rw [hp, h]; simp [Prov.configured]
            exact e1 ▸ List.mem_map_of_mem he
          · exact ⟨y, hy, e'.symm⟩
        · rintro ⟨y, hy, rfl⟩
          have := (hmem (y.1, y.2.hwId)).2 (by
            simp only [Prov.configured, List.mem_cons, List.mem_map]
            exact .inr ⟨y, hy, rfl⟩)
          rcases List.mem_cons.1 this with h | h
          · exact (hd2 y hy h.symm).elim
          · exact h
  -- what is known
  have hknown : ∀ k', IsKnown { store := p.store, extra := s1.extra, left := left, contacts := contacts } k' →
      ∃ y ∈ m, k'.serial = y.1 ∧ k'.hwId = y.2.hwId ∧ k'.key = y.2.key := by
    rintro k' ⟨a1, -, row, rfl, -, a4⟩
    obtain ⟨y, hy, e⟩ := (htail _).1 a1
    simp only [Prod.mk.injEq] at e
    obtain ⟨row, r1, r2, r3⟩ := hrow y hy
    refine ⟨y, hy, e.1, e.2, ?_⟩
    rw [a4, e.1]
    simp only [r1, Option.getD_some]
    rw [if_neg (keyTypeOf_ne (by rw [r3]; exact (hst.possible y hy).2.2.2.1)), r2, r3]
  have hrec : ∀ x ∈ l, ∃ k', IsKnown { store := p.store, extra := s1.extra, left := left, contacts := contacts } k' ∧ k'.serial = x.serial ∧
      RecordedAt env k' x.ip x.port := by
    intro x hx
    have hy : (x.serial, (⟨x.hwId, "IP", x.key⟩ : Prov.Secondary)) ∈ m := by
      rw [hm]
      exact List.mem_append_left _ (List.mem_map_of_mem (f := fun x : Sec => (x.serial, (⟨x.hwId, "IP", x.key⟩ : Prov.Secondary))) hx)
    obtain ⟨row, r1, r2, r3⟩ := hrow _ hy
    refine ⟨⟨x.serial, x.hwId, row.type, if row.keyType = "" then ⟨"", .unknown⟩ else ⟨row.key, Prov.keyTypeOf row.keyType⟩,
      (s1.extra.lookup x.serial).getD ""⟩, ⟨(htail _).2 ⟨_, hy, rfl⟩, rfl, row, by simp only; rw [r1]; rfl, rfl, rfl⟩, rfl, hwr x hx⟩
  have hread : Readable env { store := p.store, extra := s1.extra, left := left, contacts := contacts } := by
    refine ⟨?_, ?_⟩
    · intro e he
      obtain ⟨y, hy, rfl⟩ := (htail e).1 he
      obtain ⟨a1, a2, a3, a4, a5⟩ := hst.possible y hy
      refine ⟨a1, a2, a3, ?_⟩
      intro row hr _ ht
      obtain ⟨row', r1, r2, r3⟩ := hrow y hy
      rw [show p.store.secs.lookup y.1 = some row from hr] at r1
      obtain rfl := Option.some.inj r1
      rw [r2, r3]
      exact a5 (r3 ▸ ht)
    · intro e he
      obtain ⟨y, hy, rfl⟩ := (htail e).1 he
      by_cases hc : y.1 ∈ l.map Sec.serial
      · obtain ⟨z, hz, e⟩ := List.mem_map.1 hc
        obtain ⟨kvs, hk, -⟩ := hwr z hz
        rw [e] at hk
        exact .inr ⟨kvs, hk⟩
      · left
        show env.parse ((s1.extra.lookup y.1).getD "") = .null
        rw [hfr _ hc]
        rw [hm] at hy
        rcases List.mem_append.1 hy with hy | hy
        · obtain ⟨z, hz, rfl⟩ := List.mem_map.1 hy
          exact (hc (List.mem_map_of_mem hz)).elim
        · rw [hst.virtual y hy]; exact hst.nothing
  obtain ⟨l', s3, g1, g2, g3, -, -⟩ := C65_starts (es := es') (net := net') (cfg := cfg) hread (fun a ha => by
    obtain ⟨x, hx, e⟩ := hcomplete a ha
    obtain ⟨k', hk, -, hr⟩ := hrec x hx
    rw [← e]
    exact ⟨k', hk, hr⟩) (fun a ha n => .inl (hnet a ha n))
  refine ⟨l', s3, g1, g2, ?_⟩
  intro z hz
  obtain ⟨k', hk, hr, ht⟩ := g3 z hz
  have hcfg : (z.ip, z.port) ∈ cfg := by rw [← g2]; exact List.mem_map_of_mem (f := fun x : Sec => (x.ip, x.port)) hz
  have hz' : z = ⟨z.ip, z.port, k'.serial, k'.hwId, k'.key⟩ := by
    have hno := hnet _ hcfg
    generalize z.ip = ip at ht hno ⊢
    generalize z.port = port at ht hno ⊢
    cases ht with
    | answered n _ _ _ _ h _ _ => rw [hno] at h; simp at h
    | unreachable n h => rfl
    | impossible n _ _ _ _ h _ => rfl
  obtain ⟨y, hy, y1, y2, y3⟩ := hknown k' hk
  have hext : k'.extra = (s1.extra.lookup y.1).getD "" := by rw [hk.2.1, y1]
  obtain ⟨kvs, q1, q2, q3⟩ := hr
  rw [hm] at hy
  rcases List.mem_append.1 hy with hy' | hy'
  · obtain ⟨w, hw, rfl⟩ := List.mem_map.1 hy'
    obtain ⟨kvs', q1', q2', q3'⟩ := hwr w hw
    simp only at hext y1 y2 y3
    rw [hext, q1'] at q1
    simp only [Json.obj.injEq] at q1
    subst q1
    rw [q2] at q2'
    rw [q3] at q3'
    simp only [Option.some.injEq, Json.str.injEq, Json.int.injEq] at q2' q3'
    rw [hz', q2', y1, y2, y3]
    have : z.port = w.port := by omega
    rw [this]
    exact hw
  · -- a virtual Secondary has no address
    exfalso
    have hc : y.1 ∉ l.map Sec.serial := by
      rw [hm, List.map_append, List.nodup_append] at hnd
      intro hc
      obtain ⟨w, hw, e⟩ := List.mem_map.1 hc
      exact hnd.2.2 y.1 (by simp only [List.map_map, List.mem_map]; exact ⟨w, hw, e⟩) y.1 (List.mem_map_of_mem hy') rfl
    rw [hext, hfr _ hc, hst.virtual y hy'] at q1
    rw [show (none : Option String).getD "" = "" from rfl, hst.nothing] at q1
    simp at q1

/-! ## A concrete case -/

namespace Case

/-- A port in unary, a separator, a host. -/
def write : Json → String
  | .obj [("ip", .str ip), ("port", .int n)] => String.ofList (List.replicate n.toNat 'I' ++ '@' :: ip.toList)
  | _ => "{}"

def read (x : String) : Json :=
  match x.toList.dropWhile (· == 'I') with
  | '@' :: ip => address (String.ofList ip) (x.toList.takeWhile (· == 'I')).length
  | _ => .null

def env : Env where
  rsaType _ := .rsa2048
  parse := read
  canon := write

theorem round (ip : String) (port : Nat) : env.parse (env.canon (address ip port)) = address ip port := by
  show read (String.ofList (List.replicate (port : Int).toNat 'I' ++ '@' :: ip.toList)) = _
  unfold read
  have h1 : (List.replicate port 'I' ++ '@' :: ip.toList).dropWhile (· == 'I') = '@' :: ip.toList := by
    induction port with
    | zero => rfl
    | succ n ih => simp [List.replicate_succ]
  have h2 : (List.replicate port 'I' ++ '@' :: ip.toList).takeWhile (· == 'I') = List.replicate port 'I' := by
    clear h1
    induction port with
    | zero => rfl
    | succ n ih => simp only [List.replicate_succ, List.cons_append, List.takeWhile_cons, beq_self_eq_true, if_true, ih]
  simp only [Int.toNat_natCast, String.toList_ofList, h1, h2, List.length_replicate, String.ofList_toList]

def lamp (serial : String) : Contact := .info serial "lamp" ("key of " ++ serial) .ed25519

/-- One Secondary can be reached at once, the other one connects later. -/
def net : Net := fun _ ip _ => if ip = "h1" then lamp "a" else .refused

def dead : Net := fun _ _ _ => .refused

def cfg : List (String × Nat) := [("h1", 3), ("h2", 2)]

def virt : List (String × Prov.Secondary) := [("v", ⟨"lamp", "virtual", ⟨"key of v", .ed25519⟩⟩)]

def s0 : St := { store := {}, left := 9 }

def a1 : Sec := ⟨"h1", 3, "a", "lamp", ⟨"key of a", .ed25519⟩⟩

def b1 : Sec := ⟨"h2", 2, "b", "lamp", ⟨"key of b", .ed25519⟩⟩

/-- The first start, with what follows it. -/
def first : Except Err (List (String × Prov.Secondary)) × St :=
  initSecondaries env net [.connection "h2" 2 (lamp "b")] (some cfg) virt s0

def m1 : List (String × Prov.Secondary) := [member a1, member b1] ++ virt

def registered (m : List (String × Prov.Secondary)) (s : St) : Except Err Unit × Prov.St Unit :=
  Prov.run Prov.Case.toy Prov.Case.easy { cfg := Prov.Case.cfg, secondaries := m, fuel := 99 } s.store ()

/-- The storage after a start and the registration. -/
def after (m : List (String × Prov.Secondary)) (s : St) : St := { store := (registered m s).2.store, extra := s.extra, left := 9 }

theorem first_ok : first = (.ok m1, first.2) := by
  have : first.1 = .ok m1 := by decide +kernel
  rw [← this]

theorem steady : Steady env Prov.Case.toy net Prov.Case.cfg cfg virt m1 s0 first.2 where
  round := round
  possible := by decide +kernel
  primary := by
    intro y hy
    simp only [m1, virt, member, a1, b1, List.mem_append, List.mem_cons, List.not_mem_nil, or_false] at hy
    rcases hy with (rfl | rfl) | rfl <;> simp [Prov.Case.cfg]
  before := by
    have : first.2.store.ecus.head? = none := by decide +kernel
    rw [this]; simp
  table := by decide +kernel
  agrees := by
    intro y _ row h
    have : first.2.store.ecus = [] := by decide +kernel
    have := h.1
    simp_all
  serials := by
    rintro a - k ⟨h, -⟩
    simp [s0] at h
  virtual := by decide +kernel
  nothing := rfl

/-- The case meets the hypotheses of `C65_again`. -/
example : ∃ l', (createIPSecondaries env dead [] cfg (after m1 first.2)).1 = .ok l' ∧ l' = [a1, b1] := by
  obtain ⟨l, h1, l', s3, h2, h3, h4⟩ := C65_again (server := Prov.Case.easy) (es' := []) (net' := dead)
    (x := { cfg := Prov.Case.cfg, secondaries := m1, fuel := 99 }) (srv := ()) (p := (registered m1 first.2).2) first_ok rfl
    (by
      have : (registered m1 first.2).1 = .ok () := by decide +kernel
      unfold registered at this ⊢
      rw [← this]) steady
    (by
      intro a ha ip port c hc
      simp only [List.mem_singleton, Event.connection.injEq] at hc
      obtain ⟨rfl, rfl, rfl⟩ := hc
      revert a
      decide +kernel)
    (by
      intro ip port a b k t hc
      simp only [List.mem_singleton, Event.connection.injEq, lamp, Contact.info.injEq] at hc
      obtain ⟨rfl, rfl, rfl, rfl, rfl, rfl⟩ := hc
      unfold Proper
      decide +kernel)
    (fun _ _ _ => rfl) 9 0
  refine ⟨[a1, b1], ?_, rfl⟩
  decide +kernel

/-- Known and reachable: as it answers. -/
example : (createIPSecondaries env net [] cfg (after m1 first.2)).1 = .ok [a1, b1] := by decide +kernel

/-- The conditions of `C65_refuses`: nothing known, nothing reachable, no one connects. -/
example : (createIPSecondaries env dead [.connection "h3" 1 (lamp "c")] cfg s0).1 = .error (.std "Timeout while waiting for IP Secondaries") := by
  decide +kernel

example : getIPAndPort "10.0.3.1:9030".toList = .ok ("10.0.3.1".toList, 9030) := by decide +kernel

/-! ## What goes wrong -/

/-- Two different addresses with the same key: when one Secondary connects, the other one is no longer waited
for, and the daemon starts without it. -/
theorem C65_keys_collide : key "h1" 12 = key "h11" 2 ∧
    (createIPSecondaries env dead [.connection "h1" 12 (lamp "a")] [("h1", 12), ("h11", 2)] s0).1 =
      .ok [⟨"h1", 12, "a", "lamp", ⟨"key of a", .ed25519⟩⟩] := by decide +kernel

/-- A Secondary that connects and gives an impossible answer is no longer waited for. -/
theorem C65_improper_is_missing :
    (createIPSecondaries env dead [.connection "h1" 3 (lamp "")] [("h1", 3)] s0).1 = .ok [] := by decide +kernel

/-- Whoever connects while the daemon waits becomes a Secondary of the vehicle. -/
theorem C65_stranger_added :
    (initSecondaries env dead [.connection "stranger" 1 (lamp "s"), .connection "h1" 3 (lamp "a")] (some [("h1", 3)]) [] s0).1 =
      .ok [("s", ⟨"lamp", "IP", ⟨"key of s", .ed25519⟩⟩), ("a", ⟨"lamp", "IP", ⟨"key of a", .ed25519⟩⟩)] := by decide +kernel

/-- A Secondary that connects twice while another one is waited for stops the daemon. -/
theorem C65_twice :
    (initSecondaries env dead [.connection "h1" 3 (lamp "a"), .connection "h1" 3 (lamp "a"), .connection "h2" 2 (lamp "b")] (some cfg) [] s0).1 =
      .error (.std "Multiple Secondaries found with the same serial") := by decide +kernel

/-- A new Secondary that accepts the connection and does not answer becomes an ECU with the serial "Unknown". -/
theorem C65_silent_becomes_unknown :
    (initSecondaries env (fun _ _ _ => .silent) [] (some [("h1", 3)]) [] s0).1 =
      .ok [("Unknown", ⟨"Unknown", "IP", ⟨"", .unknown⟩⟩)] := by decide +kernel

/-- A known Secondary that accepts the connection and does not answer stops the daemon, one that is not
there does not. -/
theorem C65_silent_stops :
    (createIPSecondaries env (fun _ _ _ => .silent) [] cfg (after m1 first.2)).1 = .error (.std "Unable to connect to or verify IP Secondary") ∧
    (createIPSecondaries env dead [] cfg (after m1 first.2)).1 = .ok [a1, b1] := by decide +kernel

/-- The third start after another Secondary was put at the address of a known one. -/
def swapped : Net := fun _ ip _ => if ip = "h1" then lamp "c" else .refused

def second : Except Err (List (String × Prov.Secondary)) × St :=
  initSecondaries env swapped [] (some cfg) virt (after m1 first.2)

/-- Another identity at the address of a known Secondary is taken without question, registered, and not
remembered: the next start needs it to be there. -/
theorem C65_replaced_is_forgotten : second.1 = .ok [("c", ⟨"lamp", "IP", ⟨"key of c", .ed25519⟩⟩), member b1, virt.headD ("", ⟨"", "", ⟨"", .unknown⟩⟩)] ∧
    (registered ((second.1.toOption).getD []) second.2).1 = .ok () ∧
    (createIPSecondaries env dead [] cfg (after ((second.1.toOption).getD []) second.2)).1 =
      .error (.std "Timeout while waiting for IP Secondaries") := by decide +kernel

/-- Ports are cut to 16 bits, signs are taken, what follows the digits is ignored. -/
theorem C65_port_cut : getIPAndPort "h:70000".toList = .ok ("h".toList, 4464) ∧ getIPAndPort "h:-1".toList = .ok ("h".toList, 65535) ∧
    getIPAndPort "h: 12x".toList = .ok ("h".toList, 12) := by decide +kernel

end Case

end Aktualizr.Connect
