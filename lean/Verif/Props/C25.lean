import Verif.Model.Install
import Verif.Props.C10

/-!
# C25 Offline re-verification enforces the same rules as the online check
-/

namespace Aktualizr

open M Spec

namespace Spec

/-- The time `e` lies ahead of some clock reading before tick `n`. -/
def FreshBefore (c : Ctx) (n : Nat) (e : TimeStamp) : Prop := ∃ t < n, e.isExpiredAt (c.clock t) = false

/-- `r` is the newest stored Root of `repo`, which is signed by its own keys. -/
def NewestRootInUse (env : Env) (db : MetaDb) (repo : Repo) (r : Root) : Prop :=
  ∃ row, NewestRoot (rootRows repo db) row ∧ ReadsAsRoot env row.data r ∧
    SignedToThreshold env r.base "root" (env.parseJson row.data)

/-- What an online check guarantees about the Director's metadata, here for stored metadata:
`raw` is the stored Targets document and the one in use. -/
structure DirectorVerified (c : Ctx) (w : World) (raw : String) : Prop where
  root : NewestRootInUse c.env w.db .director w.dir.root
  rootFresh : FreshBefore c w.tick w.dir.root.base.expiry
  stored : Stored w.db .director .targets raw
  reads : ReadsAsTargets c.env raw w.dir.targets
  signed : SignedFor c.env w.dir.root Role.targets raw
  fresh : FreshBefore c w.tick w.dir.targets.base.expiry
  noDelegations : w.dir.targets.delegatedRoleNames = []
  oncePerEcu : (w.dir.targets.targets.flatMap (fun t => t.ecus.map Prod.fst)).Nodup

/-- What an online check guarantees about the Image repository's metadata, except for the
version and the expiry date of Targets. All documents are the stored ones. -/
structure ImageVerifiedUpTo (c : Ctx) (w : World) (rawT rawS raw : String) (ts : Targets) (listed : Int) : Prop where
  root : NewestRootInUse c.env w.db .image w.img.root
  rootFresh : FreshBefore c w.tick w.img.root.base.expiry
  storedT : Stored w.db .image .timestamp rawT
  readsT : ReadsAsTimestamp c.env rawT w.img.timestamp
  signedT : SignedFor c.env w.img.root Role.timestamp rawT
  freshT : FreshBefore c w.tick w.img.timestamp.expiry
  storedS : Stored w.db .image .snapshot rawS
  readsS : ReadsAsSnapshot c.env rawS w.img.snapshot
  signedS : SignedFor c.env w.img.root Role.snapshot rawS
  vouchedS : TimestampVouches c.env rawT rawS w.img.snapshot.version
  freshS : FreshBefore c w.tick w.img.snapshot.expiry
  stored : Stored w.db .image .targets raw
  reads : ReadsAsTargets c.env raw ts
  signed : SignedFor c.env w.img.root Role.targets raw
  /-- The Snapshot lists version `listed` for Targets and its hashes agree. -/
  vouched : SnapshotVouches c.env rawS "targets" raw listed
  inUse : w.img.targets = some ts

end Spec

/-! ### Steps -/

theorem checkRootExpired_ok {c : Ctx} {repo : Repo} {w w' : World} {u : Unit} (h : checkRootExpired c repo w = (.ok u, w')) :
    w' = { w with tick := w.tick + 1 } ∧ (getRoot repo w).base.expiry.isExpiredAt (c.clock w.tick) = false := by
  unfold checkRootExpired at h
  simp only [M.bind_ok, gets_eq, now, throwWhen_ok, Prod.mk.injEq, Except.ok.injEq] at h
  obtain ⟨_, _, ⟨rfl, rfl⟩, _, _, ⟨rfl, rfl⟩, h5, rfl⟩ := h
  exact ⟨rfl, h5⟩

theorem offlineRoot_ok {c : Ctx} {repo : Repo} {w w1 w2 w' : World} {o : Option String} {raw : String} {u : Unit}
    (h1 : loadLatestRoot repo w = (.ok o, w1)) (ho : o = some raw) (h2 : initRoot c repo raw w1 = (.ok u, w2))
    (h3 : checkRootExpired c repo w2 = (.ok u, w')) :
    ∃ r, w' = { setRoot repo r w with tick := w.tick + 1 } ∧ NewestRootInUse c.env w.db repo r ∧
      r.base.expiry.isExpiredAt (c.clock w.tick) = false := by
  subst ho
  obtain ⟨rfl, _, row, hrow, rfl⟩ := loadLatestRoot_some h1
  obtain ⟨_, hok⟩ := initRoot_cases h2
  obtain ⟨r, hr, hs, rfl⟩ := hok rfl
  obtain ⟨rfl, he⟩ := checkRootExpired_ok h3
  rw [getRoot_setRoot] at he
  have ht : (setRoot repo r w1).tick = w1.tick := by cases repo <;> rfl
  rw [ht] at he ⊢
  exact ⟨r, rfl, ⟨row, hrow, hr, hs⟩, he⟩

/-- C25, Director. If the offline check of the stored Director metadata succeeds, the newest
stored Root is self-signed and unexpired, and the stored Targets, which are in use, are signed
under it, unexpired, without delegations, and name no ECU twice. (This is more than the online
check gives: there are no "previous Targets".) -/
theorem C25_director (c : Ctx) (w w' : World) (h : Director.checkMetaOffline c w = (.ok (), w')) :
    ∃ raw, DirectorVerified c w' raw := by
  unfold Director.checkMetaOffline at h
  simp only [M.bind_ok] at h
  obtain ⟨_, w0, h0, o, w1, h1, root, w2, h2, _, w3, h3, _, w4, h4, o', w5, h5, raw, w6, h6, _, w7, h7, _, w8, h8, h9⟩ := h
  simp only [Director.resetMeta, modify_eq, Prod.mk.injEq, true_and] at h0
  subst h0
  simp only [orThrow_ok] at h2 h6
  obtain ⟨ho, rfl⟩ := h2
  obtain ⟨rfl, rfl⟩ := h6
  obtain ⟨r, rfl, hroot, hfresh⟩ := offlineRoot_ok h1 ho h3 h4
  obtain ⟨rfl, _, hst⟩ := loadNonRoot_some h5
  rcases Director.verifyTargets_cases h7 with ⟨ts, _, hts, rfl⟩ | ⟨e, he, _⟩
  swap_goal
  · simp at he
  unfold Director.checkTargetsExpired at h8
  simp only [M.bind_ok, gets_eq, now, throwWhen_ok, Prod.mk.injEq, Except.ok.injEq] at h8
  obtain ⟨_, _, ⟨rfl, rfl⟩, _, _, ⟨rfl, rfl⟩, h8, rfl⟩ := h8
  unfold Director.targetsSanityCheck at h9
  simp only [M.bind_ok, gets_eq, throwWhen_ok, Prod.mk.injEq, Except.ok.injEq] at h9
  obtain ⟨_, _, ⟨rfl, rfl⟩, _, _, ⟨hd, rfl⟩, hn, rfl⟩ := h9
  simp only [Director.afterVerify, setRoot, List.isEmpty_nil, Bool.not_true, Bool.false_and, Bool.false_eq_true, if_false] at h8 hd hn ⊢
  simp only [setRoot] at hts hst
  have k := Targets.ofJsonSigned_ok properTargets hts
  refine ⟨raw, hroot, ⟨w.tick, by show _ < _ + 1 + 1; omega, hfresh⟩, hst, k.2.2, ⟨k.1, k.2.1⟩, ⟨w.tick + 1, by show _ < _ + 1 + 1; omega, h8⟩, ?_, (repeatedEcu_nodup hn).1⟩
  simpa using hd

/-- Targets not loaded, and still not loaded. -/
def StaysEmpty (w w' : World) : Prop := w.img.targets = none → w'.img.targets = none

theorem staysEmpty_pre : IsPre StaysEmpty := ⟨fun _ h => h, fun _ _ _ h1 h2 h => h2 (h1 h)⟩

theorem staysEmpty_eq {α : Type} {m : U α} (h : Preserves Eq m) : Preserves StaysEmpty m :=
  fun w hw => by rw [← h w]; exact hw

theorem Image.verifyTargets_assigned {c : Ctx} {raw : String} {w w' : World} {o : Except Err Unit}
    (h : Image.verifyTargets c raw w = (o, w')) :
    (∃ e, o = .error e ∧ w' = w) ∨ ∃ ts, Image.roleHashLoop c.env (c.env.canon (c.env.parseJson raw)) (w.img.snapshot.hashesOf Role.targets) = .ok () ∧
      Targets.ofJsonSigned c.env Role.targets (c.env.parseJson raw) w.img.root.base = .ok ts ∧
      w' = { w with img := { w.img with targets := some ts } } ∧ (o = .ok () → ts.base.version = w.img.snapshot.versionOf Role.targets) := by
  unfold Image.verifyTargets at h
  rcases bind_cases h with ⟨d, w1, h1, h⟩ | ⟨e, h1, rfl⟩
  swap_goal
  · simp at h1
  simp only [gets_eq, Prod.mk.injEq, Except.ok.injEq] at h1
  obtain ⟨rfl, rfl⟩ := h1
  rcases bind_cases h with ⟨ex, w2, h2, h⟩ | ⟨e, h2, rfl⟩
  swap_goal
  · simp at h2; exact .inl ⟨e, rfl, h2.2.symm⟩
  simp only [lift_eq, Prod.mk.injEq] at h2
  obtain ⟨h2, rfl⟩ := h2
  rcases bind_cases h with ⟨ts, w4, h4, h⟩ | ⟨e, h4, rfl⟩
  swap_goal
  · simp at h4; exact .inl ⟨e, rfl, h4.2.symm⟩
  simp only [lift_eq, Prod.mk.injEq] at h4
  obtain ⟨h4, rfl⟩ := h4
  rcases bind_cases h with ⟨_, w5, h5, h⟩ | ⟨e, h5, rfl⟩
  swap_goal
  · simp at h5
  simp only [modify_eq, Prod.mk.injEq, Except.ok.injEq] at h5
  obtain ⟨_, rfl⟩ := h5
  refine .inr ⟨ts, h2, h4, ?_, ?_⟩
  · have := congrArg Prod.snd h
    simpa using this.symm
  · rintro rfl
    simp only [throwWhen_ok] at h
    simpa using h.1

/-- Whatever the outcome of the offline check of the Image repository: unless no Targets is in
use at all, everything up to the hashes of Targets has been checked; and if the check succeeded,
the version and expiry of Targets too. -/
theorem Image.checkMetaOffline_cases {c : Ctx} {w w' : World} {o : Except Err Unit} (h : Image.checkMetaOffline c w = (o, w')) :
    (w'.img.targets = none ∧ o ≠ .ok ()) ∨ ∃ rawT rawS raw ts listed, ImageVerifiedUpTo c w' rawT rawS raw ts listed ∧
      (o = .ok () → ts.base.version = listed ∧ FreshBefore c w'.tick ts.base.expiry) := by
  have hstep : ∀ {α : Type} {m : U α} {u v : World} {e : Err}, Preserves StaysEmpty m → m u = (.error e, v) →
      u.img.targets = none → (v.img.targets = none ∧ (Except.error e : Except Err Unit) ≠ .ok ()) :=
    fun hm he hu => ⟨hm.of_eq he hu, by simp⟩
  unfold Image.checkMetaOffline at h
  rcases bind_cases h with ⟨_, w0, h0, h⟩ | ⟨e, h0, rfl⟩
  swap_goal
  · simp [Image.resetMeta] at h0
  simp only [Image.resetMeta, modify_eq, Prod.mk.injEq, true_and] at h0
  have z0 : w0.img.targets = none := by rw [← h0]
  have d0 : w0.db = w.db := by rw [← h0]
  clear h0
  rcases bind_cases h with ⟨ro, w1, h1, h⟩ | ⟨e, h1, rfl⟩
  swap_goal
  · exact .inl (hstep (staysEmpty_eq (loadLatestRoot_same _)) h1 z0)
  have z1 : w1.img.targets = none := by rw [← (loadLatestRoot_same _).of_eq h1]; exact z0
  rcases bind_cases h with ⟨root, w2, h2, h⟩ | ⟨e, h2, rfl⟩
  swap_goal
  · exact .inl (hstep (.orThrow staysEmpty_pre) h2 z1)
  simp only [orThrow_ok] at h2
  obtain ⟨hro, rfl⟩ := h2
  rcases bind_cases h with ⟨_, w3, h3, h⟩ | ⟨e, h3, rfl⟩
  swap_goal
  · refine .inl (hstep ?_ h3 z1)
    unfold initRoot
    wpres staysEmpty_pre
    · exact fun h => h
    · exact fun h => h
  rcases bind_cases h with ⟨_, w4, h4, h⟩ | ⟨e, h4, rfl⟩
  swap_goal
  · have z3 : w3.img.targets = none := by
      obtain ⟨_, hok⟩ := initRoot_cases h3
      obtain ⟨r, _, _, rfl⟩ := hok rfl
      exact z1
    refine .inl (hstep ?_ h4 z3)
    unfold checkRootExpired now
    wpres staysEmpty_pre
    exact fun _ h => h
  obtain ⟨r, rfl, hroot, hfresh⟩ := offlineRoot_ok h1 hro h3 h4
  clear h1 h3 h4 hro
  have hempty : ∀ {α : Type} {m : U α} {u v : World} {e : Err}, m u = (.error e, v) → Preserves StaysEmpty m →
      u.img.targets = none → (v.img.targets = none ∧ (Except.error e : Except Err Unit) ≠ .ok ()) :=
    fun he hm hu => hstep hm he hu
  -- Timestamp
  rcases bind_cases h with ⟨to, w5, h5, h⟩ | ⟨e, h5, rfl⟩
  swap_goal
  · exact .inl (hempty h5 (staysEmpty_eq (loadNonRoot_same _ _)) z0)
  rcases bind_cases h with ⟨rawT, w6, h6, h⟩ | ⟨e, h6, rfl⟩
  swap_goal
  · exact .inl (hempty h6 (.orThrow staysEmpty_pre) (by rw [← (loadNonRoot_same _ _).of_eq h5]; exact z0))
  simp only [orThrow_ok] at h6
  obtain ⟨rfl, rfl⟩ := h6
  obtain ⟨rfl, _, hstT⟩ := loadNonRoot_some h5
  rcases bind_cases h with ⟨_, w7, h7, h⟩ | ⟨e, h7, rfl⟩
  swap_goal
  · rcases Image.verifyTimestamp_cases h7 with ⟨_, he, _⟩ | ⟨_, _, rfl⟩
    · cases he
    · exact .inl ⟨z0, by simp⟩
  rcases Image.verifyTimestamp_cases h7 with ⟨t, _, hT, rfl⟩ | ⟨_, he, _⟩
  swap_goal
  · cases he
  rcases bind_cases h with ⟨_, w8, h8, h⟩ | ⟨e, h8, rfl⟩
  swap_goal
  · refine .inl (hempty h8 ?_ z0)
    unfold Image.checkTimestampExpired now
    wpres staysEmpty_pre
    exact fun _ h => h
  unfold Image.checkTimestampExpired at h8
  simp only [M.bind_ok, gets_eq, now, throwWhen_ok, Prod.mk.injEq, Except.ok.injEq] at h8
  obtain ⟨_, _, ⟨rfl, rfl⟩, _, _, ⟨rfl, rfl⟩, hfT, rfl⟩ := h8
  -- Snapshot
  rcases bind_cases h with ⟨so, w9, h9, h⟩ | ⟨e, h9, rfl⟩
  swap_goal
  · exact .inl (hempty h9 (staysEmpty_eq (loadNonRoot_same _ _)) z0)
  rcases bind_cases h with ⟨rawS, w10, h10, h⟩ | ⟨e, h10, rfl⟩
  swap_goal
  · exact .inl (hempty h10 (.orThrow staysEmpty_pre) (by rw [← (loadNonRoot_same _ _).of_eq h9]; exact z0))
  simp only [orThrow_ok] at h10
  obtain ⟨rfl, rfl⟩ := h10
  obtain ⟨rfl, _, hstS⟩ := loadNonRoot_some h9
  rcases bind_cases h with ⟨_, w11, h11, h⟩ | ⟨e, h11, rfl⟩
  swap_goal
  · rcases Image.verifySnapshot_cases h11 with ⟨_, he, _⟩ | ⟨_, _, rfl | ⟨_, _, _, rfl⟩⟩
    · cases he
    · exact .inl ⟨z0, by simp⟩
    · exact .inl ⟨z0, by simp⟩
  rcases Image.verifySnapshot_cases h11 with ⟨s, _, hS, rfl⟩ | ⟨_, he, _⟩
  swap_goal
  · cases he
  rcases bind_cases h with ⟨_, w12, h12, h⟩ | ⟨e, h12, rfl⟩
  swap_goal
  · refine .inl (hempty h12 ?_ z0)
    unfold Image.checkSnapshotExpired now
    wpres staysEmpty_pre
    exact fun _ h => h
  unfold Image.checkSnapshotExpired at h12
  simp only [M.bind_ok, gets_eq, now, throwWhen_ok, Prod.mk.injEq, Except.ok.injEq] at h12
  obtain ⟨_, _, ⟨rfl, rfl⟩, _, _, ⟨rfl, rfl⟩, hfS, rfl⟩ := h12
  -- Targets
  rcases bind_cases h with ⟨to, w13, h13, h⟩ | ⟨e, h13, rfl⟩
  swap_goal
  · exact .inl (hempty h13 (staysEmpty_eq (loadNonRoot_same _ _)) z0)
  rcases bind_cases h with ⟨raw, w14, h14, h⟩ | ⟨e, h14, rfl⟩
  swap_goal
  · exact .inl (hempty h14 (.orThrow staysEmpty_pre) (by rw [← (loadNonRoot_same _ _).of_eq h13]; exact z0))
  simp only [orThrow_ok] at h14
  obtain ⟨rfl, rfl⟩ := h14
  obtain ⟨rfl, _, hst⟩ := loadNonRoot_some h13
  have kT := TimestampMeta.ofJsonSigned_ok hT
  have kS := Snapshot.ofJsonSigned_ok hS.parsed
  have vS : TimestampVouches c.env rawT rawS s.version := by
    rw [hS.version]; exact timestamp_vouches hT hS.hashes
  have key : ∀ (ts : Targets) (n : Nat), 
      Image.roleHashLoop c.env (c.env.canon (c.env.parseJson raw)) (s.hashesOf Role.targets) = .ok () →
      Targets.ofJsonSigned c.env Role.targets (c.env.parseJson raw) r.base = .ok ts → w0.tick + 3 ≤ n →
      ImageVerifiedUpTo c { w0 with tick := n, img := { w0.img with root := r, timestamp := t, snapshot := s, targets := some ts } } rawT rawS raw ts
        (s.versionOf Role.targets) := by
    intro ts n k1 k2 hn
    have k := Targets.ofJsonSigned_ok properTargets k2
    exact { root := hroot, rootFresh := ⟨w0.tick, by show _ < n; omega, hfresh⟩
            storedT := hstT, readsT := kT.2.2.1, signedT := ⟨kT.1, kT.2.1⟩
            freshT := ⟨w0.tick + 1, by show _ < n; omega, hfT⟩
            storedS := hstS, readsS := kS.2.2.1, signedS := ⟨kS.1, kS.2.1⟩, vouchedS := vS
            freshS := ⟨w0.tick + 1 + 1, by show _ < n; omega, hfS⟩
            stored := hst, reads := k.2.2, signed := ⟨k.1, k.2.1⟩
            vouched := snapshot_vouches hS.parsed k1, inUse := rfl }
  rcases bind_cases h with ⟨_, w15, h15, h⟩ | ⟨e, h15, rfl⟩
  swap_goal
  · rcases Image.verifyTargets_assigned h15 with ⟨_, _, rfl⟩ | ⟨ts, k1, k2, rfl, _⟩
    · exact .inl ⟨z0, by simp⟩
    · exact .inr ⟨rawT, rawS, raw, ts, _, key ts (w0.tick + 3) k1 k2 (Nat.le_refl _), by simp⟩
  rcases Image.verifyTargets_assigned h15 with ⟨_, he, _⟩ | ⟨ts, k1, k2, rfl, k3⟩
  · cases he
  refine .inr ⟨rawT, rawS, raw, ts, s.versionOf Role.targets, ?_⟩
  unfold Image.checkTargetsExpired at h
  replace h := bind_cases h
  simp only [gets_eq, Prod.mk.injEq, Except.ok.injEq, reduceCtorEq, false_and, exists_false, or_false, exists_eq_left', exists_eq_right'] at h
  obtain ⟨_, _, ⟨rfl, rfl⟩, h⟩ := h
  simp only at h
  unfold now at h
  replace h := bind_cases h
  rcases h with ⟨x, w16, h16, h⟩ | ⟨_, h16, _⟩
  swap_goal
  · simp at h16
  simp only [Prod.mk.injEq, Except.ok.injEq] at h16
  obtain ⟨rfl, rfl⟩ := h16
  have hw := congrArg Prod.snd h
  simp only [throwWhen_snd] at hw
  subst hw
  refine ⟨key ts (w0.tick + 4) k1 k2 (by omega), ?_⟩
  rintro rfl
  simp only [throwWhen_ok] at h
  exact ⟨k3 rfl, w0.tick + 3, by show _ < w0.tick + 4; omega, h.1⟩

/-- C25, Image repository. If the offline check of the stored Image repository metadata
succeeds, the stored documents satisfy everything an online check asks: signatures, expiry
dates, and the hash and version chain. -/
theorem C25_image (c : Ctx) (w w' : World) (h : Image.checkMetaOffline c w = (.ok (), w')) :
    ∃ rawT rawS raw ts, ImageVerifiedUpTo c w' rawT rawS raw ts ts.base.version ∧ FreshBefore c w'.tick ts.base.expiry := by
  rcases Image.checkMetaOffline_cases h with ⟨_, hn⟩ | ⟨rawT, rawS, raw, ts, listed, h1, h2⟩
  · exact absurd rfl hn
  · obtain ⟨rfl, h3⟩ := h2 rfl
    exact ⟨rawT, rawS, raw, ts, h1, h3⟩

namespace Spec

/-- The requested target `t` is listed both by the Director's Targets `director` and by the
Image repository, at the top level or through trusted delegations. -/
def ApprovedByBoth (env : Env) (director : Targets) (rawS raw : String) (ts : Targets) (times : TimeStamp → Prop) (t : Target) : Prop :=
  (∃ d ∈ director.targets, SameContent d t ∧ SameAssignment d t) ∧
  ∃ n terminating leaf m, n ≤ 5 ∧ Chain env rawS t.filename times ⟨raw, ts⟩ n terminating leaf ∧
    m ∈ leaf.content.targets ∧ SameContent m t ∧ SameAssignment m t

/-- The stored metadata of `cl` has been verified again, as far as the client does it, leading to
`cl'`, and every requested target is approved by both repositories: the Director metadata passes
everything an online check asks, the Image repository metadata everything up to the hashes of
Targets. -/
def Reverified (c : Ctx) (reqs : List Target) (cl cl' : Client) : Prop :=
  ∃ wd wi rawD rawT rawS raw ts listed,
    DirectorVerified c wd rawD ∧ wd.db = cl.w.db ∧ cl'.w.dir = wd.dir ∧
    ImageVerifiedUpTo c wi rawT rawS raw ts listed ∧ wi.db = cl.w.db ∧ cl'.w.img = wi.img ∧
    wd.tick ≤ cl'.w.tick ∧ wi.tick ≤ cl'.w.tick ∧
    ∀ t ∈ reqs, ApprovedByBoth c.env cl'.w.dir.targets rawS raw ts (fun x => ∃ k < cl'.w.tick, x = c.clock k) t

end Spec

theorem offlineLoop_ok {c : Ctx} {director reqs : List Target} {cl cl' : Client} {u : Unit} {rawS raw : String} {ts : Targets}
    (hr : ReadsAsTargets c.env raw ts) (hi : cl.w.img.targets = some ts) (hs : ReadsAsSnapshot c.env rawS cl.w.img.snapshot)
    (h : offlineLoop c director reqs cl = (.ok u, cl')) :
    Steady cl.w cl'.w ∧ ∀ t ∈ reqs, (∃ d ∈ director, SameContent d t ∧ SameAssignment d t) ∧
      ∃ n terminating leaf m, n ≤ 5 ∧
        Chain c.env rawS t.filename (fun x => ∃ k, cl.w.tick ≤ k ∧ k < cl'.w.tick ∧ x = c.clock k) ⟨raw, ts⟩ n terminating leaf ∧
        m ∈ leaf.content.targets ∧ SameContent m t ∧ SameAssignment m t := by
  induction reqs generalizing cl with
  | nil =>
    simp only [offlineLoop, pure_eq, Prod.mk.injEq, Except.ok.injEq] at h
    obtain ⟨_, rfl⟩ := h
    exact ⟨steady_pre.refl _, by simp⟩
  | cons t reqs ih =>
    unfold offlineLoop at h
    replace h := M.bind_ok.1 h
    obtain ⟨_, cl0, h0, h⟩ := h
    simp only [throwWhen_ok, Bool.not_eq_false', List.any_eq_true] at h0
    obtain ⟨⟨d, hd, hdt⟩, rfl⟩ := h0
    replace h := M.bind_ok.1 h
    obtain ⟨found, cl1, h1, h⟩ := h
    obtain ⟨w1, hf, rfl⟩ := inWorld_ok.1 h1
    have st := (Delegation.findInTree_steady c t true).of_eq hf
    cases found with
    | none => simp at h
    | some m =>
      obtain ⟨st2, hall⟩ := ih (cl := { cl with w := w1 }) (by show w1.img.targets = _; rw [st.1]; exact hi)
        (by show ReadsAsSnapshot _ _ w1.img.snapshot; rw [st.1]; exact hs) h
      refine ⟨steady_pre.trans _ _ _ st st2, ?_⟩
      have t1 : cl.w.tick ≤ w1.tick := st.2.2
      have t2 : w1.tick ≤ cl'.w.tick := st2.2.2
      intro q hq
      rcases List.mem_cons.1 hq with rfl | hq
      · refine ⟨⟨d, hd, matchTarget_iff.1 hdt⟩, ?_⟩
        obtain ⟨n, term, leaf, h1, h2, h3, h4⟩ := C12_found_partial c q m true _ _ ts raw rawS hr hi hs hf
        exact ⟨n, term, leaf, m, h1, h2.mono (fun x ⟨k, k1, k2, k3⟩ => ⟨k, k1, Nat.lt_of_lt_of_le k2 t2, k3⟩), h3, h4⟩
      · obtain ⟨g1, n, term, leaf, m, h1, h2, h3⟩ := hall q hq
        exact ⟨g1, n, term, leaf, m, h1, h2.mono (fun x ⟨k, k1, k2, k3⟩ => ⟨k, Nat.le_trans t1 k1, k2, k3⟩), h3⟩

/-- C25, client. If the offline check before an installation answers "updates available", then
the stored Director metadata satisfies everything an online check asks; the stored Image
repository metadata satisfies everything up to the hashes of Targets; and every requested target
is listed by both repositories.

Missing: that the stored Image repository Targets has the version the Snapshot lists, and that
it is unexpired. This is false, see `C25_expired_targets_accepted` and
`C25_wrong_version_accepted`: the client ignores the failure of the Image repository check. -/
theorem C25_offline_partial (c : Ctx) (reqs : List Target) (cl cl' : Client)
    (h : checkUpdatesOffline c reqs cl = (.ok .available, cl')) : Reverified c reqs cl cl' := by
  have hEq : DbPre (fun a b : MetaDb => b = a) := ⟨fun _ => rfl, fun _ _ _ h1 h2 => h2.trans h1⟩
  unfold checkUpdatesOffline at h
  replace h := M.bind_ok.1 h
  obtain ⟨_, _, h0, h⟩ := h
  simp only [gets_eq, Prod.mk.injEq, Except.ok.injEq, id] at h0
  obtain ⟨rfl, rfl⟩ := h0
  split at h
  · simp at h
  split at h
  · simp at h
  next hreq =>
  replace h := M.bind_ok.1 h
  obtain ⟨rn, cl1, h1, h⟩ := h
  unfold uptaneOfflineIteration at h1
  replace h1 := M.bind_ok.1 h1
  obtain ⟨_, cl2, h2, h1⟩ := h1
  obtain ⟨wd, hd, rfl⟩ := inWorld_ok.1 h2
  replace h1 := M.bind_ok.1 h1
  obtain ⟨_, _, h3, h1⟩ := h1
  simp only [gets_eq, Prod.mk.injEq, Except.ok.injEq, id] at h3
  obtain ⟨rfl, rfl⟩ := h3
  replace h1 := M.bind_ok.1 h1
  obtain ⟨x, _, h4, h1⟩ := h1
  simp only [lift_eq, Prod.mk.injEq] at h4
  obtain ⟨hn, rfl⟩ := h4
  split at h1
  · next hx =>
    simp only [pure_eq, Prod.mk.injEq, Except.ok.injEq] at h1
    obtain ⟨rfl, rfl⟩ := h1
    rw [if_pos hx] at h
    simp at h
  replace h1 := M.bind_ok.1 h1
  obtain ⟨_, cl5, h5, h1⟩ := h1
  simp only [pure_eq, Prod.mk.injEq, Except.ok.injEq] at h1
  obtain ⟨rfl, rfl⟩ := h1
  split at h
  · simp at h
  replace h := M.bind_ok.1 h
  obtain ⟨_, cl6, h6, h⟩ := h
  simp only [pure_eq, Prod.mk.injEq] at h
  obtain ⟨_, rfl⟩ := h
  have hwi : ∃ o wi, Image.checkMetaOffline c wd = (o, wi) ∧ cl5 = { cl with w := wi } := by
    unfold checkImageMetaOffline at h5
    rcases catchStd_ok.1 h5 with g5 | ⟨e, cl7, g5, _, g7⟩
    · obtain ⟨wi, k5, rfl⟩ := inWorld_ok.1 g5
      exact ⟨_, wi, k5, rfl⟩
    · simp only [pure_eq, Prod.mk.injEq] at g7
      obtain ⟨_, rfl⟩ := g7
      exact ⟨_, _, rfl, (Prod.mk.inj ((inWorld_eq _ _).symm.trans g5)).2.symm⟩
  obtain ⟨o, wi, hi, rfl⟩ := hwi
  obtain ⟨rawD, hD⟩ := C25_director c _ _ hd
  have hk := (Image.checkMetaOffline_keepsDir c).of_eq hi
  have dbd : wd.db = cl.w.db := (Director.checkMetaOffline_pres hEq c).of_eq hd
  have dbi : wi.db = wd.db := (Image.checkMetaOffline_pres hEq c).of_eq hi
  rcases Image.checkMetaOffline_cases hi with ⟨hnone, _⟩ | ⟨rawT, rawS, raw, ts, listed, hI, _⟩
  · -- nothing can be found without Targets
    cases reqs with
    | nil => simp at hreq
    | cons t reqs =>
      unfold offlineLoop at h6
      obtain ⟨_, _, h7, h6⟩ := M.bind_ok.1 h6
      simp only [throwWhen_ok] at h7
      obtain ⟨_, rfl⟩ := h7
      obtain ⟨found, _, h8, h6⟩ := M.bind_ok.1 h6
      obtain ⟨_, h8, _⟩ := inWorld_ok.1 h8
      unfold Delegation.findInTree at h8
      obtain ⟨_, _, h9, h8⟩ := M.bind_ok.1 h8
      simp only [gets_eq, Prod.mk.injEq, Except.ok.injEq] at h9
      obtain ⟨rfl, rfl⟩ := h9
      replace hnone : wi.img.targets = none := hnone
      simp only [hnone, pure_eq, Prod.mk.injEq, Except.ok.injEq] at h8
      obtain ⟨rfl, _⟩ := h8
      simp at h6
  · obtain ⟨st, hall⟩ := offlineLoop_ok (cl := { cl with w := wi }) hI.reads hI.inUse hI.readsS h6
    replace st : Steady wi cl6.w := st
    have hdir : cl6.w.dir = wd.dir := st.2.1.trans hk.1
    refine ⟨wd, wi, rawD, rawT, rawS, raw, ts, listed, hD, dbd, hdir, hI, dbi.trans dbd, st.1, Nat.le_trans hk.2 st.2.2, st.2.2, ?_⟩
    intro t ht
    obtain ⟨⟨d, hdm, hdt⟩, n, term, leaf, m, g1, g2, g3⟩ := hall t ht
    refine ⟨⟨d, ?_, hdt⟩, n, term, leaf, m, g1, g2.mono (fun x ⟨k, _, k2, k3⟩ => ⟨k, k2, k3⟩), g3⟩
    rw [hdir]
    exact (((targetLoop_ok hn).2 d).1 hdm).1

/-! ### Witnesses -/

namespace Toy

/-- The device after online checks against the given servers, one after the other. -/
def afterChecks (servers : List (List ((Repo × String × Int) × String))) : Client :=
  servers.foldl (fun cl t => (checkUpdates (deleCtx t) cl).2) device

/-- A context without network in July 2026. -/
def july : Ctx := { env := E, net := net [], clock := clock "2026-07-01T00:00:00Z" }

def statusOf (x : Except Err UpdateStatus × Client) : Option UpdateStatus := x.1.toOption

theorem statusOf_some {x : Except Err UpdateStatus × Client} {s : UpdateStatus} (h : statusOf x = some s) : x = (.ok s, x.2) := by
  obtain ⟨r, cl⟩ := x
  cases r with
  | ok a => simp [statusOf, Except.toOption] at h; rw [h]
  | error e => cases h

end Toy

/-- Not vacuous: `C25_director`, `C25_image` and `C25_offline_partial`: what was checked online
is accepted again offline. -/
example :
    (Director.checkMetaOffline Toy.july (Toy.afterChecks [Toy.good]).w).1 = .ok () ∧
    (Image.checkMetaOffline Toy.july (Toy.afterChecks [Toy.good]).w).1 = .ok () ∧
    Toy.statusOf (checkUpdatesOffline Toy.july [Toy.targetFor "fw" "abc" [("e1", "h1")]] (Toy.afterChecks [Toy.good])) = some .available := by
  decide +kernel

/-- A target the Director did not assign is refused, and so is one without any metadata. -/
example :
    Toy.errOf (checkUpdatesOffline Toy.july [Toy.targetFor "fw2" "abc" [("e1", "h1")]] (Toy.afterChecks [Toy.good])).1 = some (.upt .targetMismatch) ∧
    (Toy.errOf (checkUpdatesOffline Toy.july [Toy.targetFor "fw" "abc" [("e1", "h1")]] Toy.device).1).isSome = true := by
  decide +kernel

/-- C25 is false for expiry: the stored Image repository Targets has expired in June, an offline
check in July still answers that the update is available. -/
theorem C25_expired_targets_accepted :
    ∃ (cl cl' : Client) (ts : Targets), checkUpdatesOffline Toy.july [Toy.targetFor "fw" "abc" [("e1", "h1")]] cl = (.ok .available, cl') ∧
      cl'.w.img.targets = some ts ∧ ∀ n, ¬ FreshBefore Toy.july n ts.base.expiry := by
  have h1 : (checkUpdatesOffline Toy.july [Toy.targetFor "fw" "abc" [("e1", "h1")]] (Toy.afterChecks [Toy.expiring])).2.w.img.targets.map
      (fun ts => ts.base.expiry.isExpiredAt ⟨"2026-07-01T00:00:00Z"⟩) = some true := by decide +kernel
  obtain ⟨ts, h1, h2⟩ := option_map_some h1
  refine ⟨_, _, ts, Toy.statusOf_some (by decide +kernel), h1, ?_⟩
  rintro n ⟨t, _, h⟩
  replace h : ts.base.expiry.isExpiredAt ⟨"2026-07-01T00:00:00Z"⟩ = false := h
  rw [h2] at h
  cases h

/-- The image repository rejects exactly this state. -/
example : Toy.errOf (Image.checkMetaOffline Toy.july (Toy.afterChecks [Toy.expiring]).w).1 = some (.upt (.expiredMetadata "targets")) := by decide +kernel

/-- C25 is false for versions: after an online check that stored a newer Snapshot and then failed
to get the newer Targets, the offline check accepts the old Targets although the Snapshot in use
lists another version. -/
theorem C25_wrong_version_accepted :
    ∃ (cl cl' : Client) (ts : Targets), checkUpdatesOffline Toy.july [Toy.targetFor "fw" "abc" [("e1", "h1")]] cl = (.ok .available, cl') ∧
      cl'.w.img.targets = some ts ∧ ts.base.version = 1 ∧ cl'.w.img.snapshot.versionOf Role.targets = 8 := by
  have h1 : (checkUpdatesOffline Toy.july [Toy.targetFor "fw" "abc" [("e1", "h1")]] (Toy.afterChecks [Toy.good, Toy.halfway])).2.w.img.targets.map
      (fun ts => ts.base.version) = some 1 := by decide +kernel
  obtain ⟨ts, h1, h2⟩ := option_map_some h1
  exact ⟨_, _, ts, Toy.statusOf_some (by decide +kernel), h1, h2, by decide +kernel⟩

end Aktualizr
