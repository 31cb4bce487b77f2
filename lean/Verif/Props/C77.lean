import Verif.Model.IpPair
import Verif.Props.C57
import Verif.Props.C76Life

/-!
# C77 What a Primary is told by an IP Secondary is true

A Primary's object for an IP Secondary, and the Secondary over its whole life, with a network between them that may lose any
request and any answer, and with other things happening to the Secondary between two requests.
-/

namespace Aktualizr

open M Spec

/-! ### Specification -/

namespace Pair

open Ip (Req Resp)
open SecId (Around Says)

/-- What happened to the Secondary: between the requests, and the requests that arrived. -/
def history (fates : Nat → Fate) : Nat → List Req → List SecId.Op
  | _, [] => []
  | n, r :: rs => (fates n).before ++ (if (fates n).arrives then (operation (fates n) r).toList else []) ++ history fates (n + 1) rs

/-- An upload that loses data without notice. -/
def Loses : SecId.Op → Prop
  | .upload io d => io.fate = .unnoticed ∧ io.kept < d.length
  | _ => False

/-- No target the Secondary gets in this life has a hash that contents of another length have. -/
def Bound (a : Around) (s0 : SecId.State) (ops : List SecId.Op) : Prop :=
  ∀ pre s t, pre <+: ops → SecId.run a s0 pre = .ok s → s.core.pending = some t → Sec.Binding a.hashing t

end Pair

namespace Pair

open Ip (Req Resp)
open Sec (Bytes)
open SecId (Around Says Since AllSuit New)

variable {a : Around} {fates : Nat → Fate}

theorem history_append (n : Nat) (l l' : List Req) : history fates n (l ++ l') = history fates n l ++ history fates (n + l.length) l' := by
  induction l generalizing n with
  | nil => rfl
  | cons r l ih =>
    simp only [List.cons_append, history, ih, List.append_assoc, List.length_cons]
    rw [show n + 1 + l.length = n + (l.length + 1) by omega]

theorem after_append (s : SecId.State) (n : Nat) (l l' : List Req) :
    after a fates s n (l ++ l') = (after a fates s n l >>= fun s => after a fates s (n + l.length) l') := by
  induction l generalizing s n with
  | nil => rfl
  | cons r l ih =>
    show (deliver a (fates n) s r >>= fun q => after a fates q.2 (n + 1) (l ++ l')) =
      ((deliver a (fates n) s r >>= fun q => after a fates q.2 (n + 1) l) >>= fun s => after a fates s (n + (l.length + 1)) l')
    cases deliver a (fates n) s r with
    | error e => rfl
    | ok q =>
      show after a fates q.2 (n + 1) (l ++ l') = (after a fates q.2 (n + 1) l >>= fun s => after a fates s (n + (l.length + 1)) l')
      rw [ih, show n + 1 + l.length = n + (l.length + 1) by omega]

/-- How a request goes. -/
theorem deliver_ok {f : Fate} {s s' : SecId.State} {r : Req} {x : Resp} (h : deliver a f s r = .ok (x, s')) :
    ∃ s1, SecId.run a s f.before = .ok s1 ∧
      ((f.arrives = false ∧ s' = s1 ∧ x = .nothing) ∨
       (f.arrives = true ∧ operation f r = none ∧ s' = s1 ∧
          (x ≠ .nothing → ∃ v, r = .version v ∧ x = .version 2 ∧ s1.core.up = true)) ∨
       (f.arrives = true ∧ ∃ o q, operation f r = some o ∧ SecId.step a s1 o = .ok (q, s') ∧
          (x ≠ .nothing → ∃ y, q = some y ∧ x = response a.g.env r y))) := by
  unfold deliver at h
  obtain ⟨s1, h1, h⟩ := exc_bind_ok.1 h
  refine ⟨s1, h1, ?_⟩
  cases ha : f.arrives with
  | false =>
    rw [ha] at h
    cases h
    exact .inl ⟨rfl, rfl, rfl⟩
  | true =>
    rw [ha] at h
    rw [if_neg (by simp)] at h
    cases ho : operation f r with
    | none =>
      rw [ho] at h
      injection h with h
      rw [Prod.mk.injEq] at h
      refine .inr (.inl ⟨rfl, rfl, h.2.symm, fun hx => ?_⟩)
      obtain ⟨h, -⟩ := h
      split at h
      · cases r with
        | version v =>
          simp only at h
          split at h
          · exact ⟨v, rfl, h.symm, ‹_›⟩
          · exact absurd h.symm hx
        | _ => exact absurd h.symm hx
      · exact absurd h.symm hx
    | some o =>
      rw [ho] at h
      obtain ⟨q, h2, h3⟩ := exc_bind_ok.1 h
      injection h3 with h3
      rw [Prod.mk.injEq] at h3
      obtain ⟨h4, h5⟩ := h3
      rw [← h5]
      refine .inr (.inr ⟨rfl, o, q.1, rfl, h2, fun hx => ?_⟩)
      split at h4
      · cases hq : q.1 with
        | none => rw [hq] at h4; exact absurd h4.symm hx
        | some y => rw [hq] at h4; exact ⟨y, rfl, h4.symm⟩
      · exact absurd h4.symm hx

/-- **Whatever the network does, the Secondary lives a life**: the one made of what happened between the requests and of the requests
that arrived. So everything proved about such lives holds. -/
theorem C77_life (asked : List Req) (s0 s : SecId.State) (h : after a fates s0 0 asked = .ok s) :
    SecId.run a s0 (history fates 0 asked) = .ok s := by
  suffices H : ∀ n s0, after a fates s0 n asked = .ok s → SecId.run a s0 (history fates n asked) = .ok s from H 0 s0 h
  clear h s0
  induction asked with
  | nil => intro n s0 h; exact h
  | cons r l ih =>
    intro n s0 h
    obtain ⟨q, h1, h⟩ := exc_bind_ok.1 (show (deliver a (fates n) s0 r >>= fun q => after a fates q.2 (n + 1) l) = .ok s from h)
    obtain ⟨s1, g1, g⟩ := deliver_ok (x := q.1) (s' := q.2) h1
    have h := ih _ _ h
    show SecId.run a s0 (_ ++ _ ++ _) = _
    rw [List.append_assoc, SecId.run_append, g1, exc_bind_of_ok]
    rcases g with ⟨g, e, -⟩ | ⟨g, g', e, -⟩ | ⟨g, o, y, g', g2, -⟩
    · rw [g, ← e]
      exact h
    · rw [g, if_pos rfl, g', ← e]
      exact h
    · rw [g, if_pos rfl, g']
      show (SecId.step a s1 o >>= fun q => SecId.run a q.2 _) = _
      rw [g2]
      exact h

/-- An answer that is one: the request arrived and was answered. -/
theorem peer_ok {s0 : SecId.State} {l : List Req} {r : Req} (h : peer a fates s0 (l ++ [r]) ≠ .nothing) :
    ∃ s1 s', SecId.run a s0 (history fates 0 l ++ (fates l.length).before) = .ok s1 ∧ after a fates s0 0 (l ++ [r]) = .ok s' ∧
      ((∃ v, r = .version v ∧ peer a fates s0 (l ++ [r]) = .version 2 ∧ s' = s1 ∧ s1.core.up = true) ∨
       ∃ o y, operation (fates l.length) r = some o ∧ SecId.step a s1 o = .ok (some y, s') ∧ peer a fates s0 (l ++ [r]) = response a.g.env r y ∧
        history fates 0 (l ++ [r]) = history fates 0 l ++ (fates l.length).before ++ [o]) := by
  have hp : peer a fates s0 (l ++ [r]) = match after a fates s0 0 l >>= fun s => deliver a (fates l.length) s r with
      | .ok q => q.1
      | .error _ => .nothing := by
    unfold peer
    rw [List.getLast?_concat, List.dropLast_concat, List.length_append]
    rfl
  cases hd : (after a fates s0 0 l >>= fun s => deliver a (fates l.length) s r) with
  | error e => rw [hd] at hp; exact absurd hp h
  | ok q =>
    rw [hd] at hp
    simp only at hp
    obtain ⟨s, h1, h2⟩ := exc_bind_ok.1 hd
    obtain ⟨s1, g1, g⟩ := deliver_ok (x := q.1) (s' := q.2) h2
    refine ⟨s1, q.2, ?_, ?_, ?_⟩
    · rw [SecId.run_append, C77_life l s0 s h1]
      exact g1
    · rw [after_append, h1, exc_bind_of_ok, Nat.zero_add]
      show (deliver a (fates l.length) s r >>= fun q => after a fates q.2 _ []) = _
      rw [h2]
      rfl
    · have hx : q.1 ≠ .nothing := fun e => h (hp.trans e)
      rcases g with ⟨-, -, e⟩ | ⟨-, -, e, g⟩ | ⟨ga, o, y, go, gs, g⟩
      · exact absurd e hx
      · obtain ⟨v, rfl, g1, g2⟩ := g hx
        exact .inl ⟨v, rfl, hp.trans g1, e, g2⟩
      · obtain ⟨z, rfl, g5⟩ := g hx
        refine .inr ⟨o, z, go, gs, hp.trans g5, ?_⟩
        rw [history_append, Nat.zero_add]
        show _ ++ (_ ++ _ ++ []) = _
        rw [ga, go, if_pos rfl, List.append_nil, List.append_assoc]
        rfl

/-- A request of the part without identity that was answered. -/
theorem other_ok {o : Sec.Op} {s s' : SecId.State} {y : SecId.Reply} (h : SecId.other a o s = .ok (some y, s')) :
    ∃ x, y = .answer x ∧ Sec.step a.g.env a.hashing s.core o = .ok (some x, s'.core) ∧ s' = { s with core := s'.core } := by
  unfold SecId.other at h
  obtain ⟨q, h1, h2⟩ := exc_bind_ok.1 h
  injection h2 with h2
  rw [Prod.mk.injEq] at h2
  obtain ⟨h3, h4⟩ := h2
  obtain ⟨q1, q2⟩ := q
  cases q1 with
  | none => cases h3
  | some x =>
    injection h3 with h3
    rw [← h4]
    exact ⟨x, h3.symm, h1, rfl⟩

theorem code_fine {x : Sec.Answer} (h : Fine (code x)) : x = .ok := by
  cases x <;> first | rfl | (exfalso; revert h; unfold Fine; decide)

theorem up_of_answer {o : Sec.Op} {s s' : Sec.State} {x : Sec.Answer} {env : Env} {hs : Sec.Hashing} (ho : ∀ c f, o ≠ .restart c f)
    (h : Sec.step env hs s o = .ok (some x, s')) : s.up = true := by
  cases hu : s.up with
  | true => rfl
  | false =>
    exfalso
    cases o with
    | restart c f => exact ho c f rfl
    | putMeta m c f => change Sec.request _ _ _ = _ at h; unfold Sec.request at h; rw [if_neg (by simp [hu])] at h; cases h
    | upload io d => change Sec.request _ _ _ = _ at h; unfold Sec.request at h; rw [if_neg (by simp [hu])] at h; cases h
    | install r f => change Sec.request _ _ _ = _ at h; unfold Sec.request at h; rw [if_neg (by simp [hu])] at h; cases h

/-- The installation request as it reached the Secondary. -/
theorem install_arrived {s0 : SecId.State} {t : Target} {st st' : Ip.St} {r : InstResult} (h : Ip.install (peer a fates s0) t st = (.ok r, st'))
    (hr : r.success = true) :
    ∃ ops s1 s' rn f, after a fates s0 0 st'.asked = .ok s' ∧ history fates 0 st'.asked = ops ++ [.install rn f] ∧ SecId.run a s0 ops = .ok s1 ∧
      Sec.step a.g.env a.hashing s1.core (.install rn f) = .ok (some .ok, s'.core) ∧ s' = { s1 with core := s'.core } := by
  obtain ⟨e, hv⟩ := (Ip.C57_install h).1 hr
  have hne : peer a fates s0 (st.asked ++ [.install t.filename]) ≠ .nothing := by
    rw [← e]
    rcases hv with ⟨-, c, d, hp, -⟩ | ⟨-, c, hp, -⟩ <;> rw [hp] <;> simp
  obtain ⟨s1, s', h1, h2, hc⟩ := peer_ok hne
  rw [← e] at h2 hc
  rcases hc with ⟨v, hv', -⟩ | ⟨o, y, ho, hs, hp, hh⟩
  · cases hv'
  · cases ho
    obtain ⟨x, rfl, hs, hs'⟩ := other_ok hs
    rw [hp] at hv
    have hx : x = .ok := by
      rcases hv with ⟨-, c, d, he, hf⟩ | ⟨-, c, he, -⟩
      · cases he
        exact code_fine hf
      · cases he
    subst hx
    exact ⟨_, s1, s', _, _, h2, hh, h1, hs, hs'⟩

theorem core_loses {ops : List SecId.Op} (h : ∀ o ∈ ops, ¬ Loses o) : ∀ o ∈ SecId.core ops, ¬ Sec.Lossy o := by
  induction ops with
  | nil => intro o ho; cases ho
  | cons x l ih =>
    have ih := ih (fun o ho => h o (.tail _ ho))
    cases x with
    | upload io d =>
      intro o ho
      rcases List.mem_cons.1 ho with rfl | ho
      · exact h _ (.head _)
      · exact ih o ho
    | start _ _ _ => intro o ho; rcases List.mem_cons.1 ho with rfl | ho; · exact fun h => h
                     exact ih o ho
    | putMeta _ _ _ => intro o ho; rcases List.mem_cons.1 ho with rfl | ho; · exact fun h => h
                       exact ih o ho
    | install _ _ => intro o ho; rcases List.mem_cons.1 ho with rfl | ho; · exact fun h => h
                     exact ih o ho
    | _ => exact ih

/-- **An installation reported as successful has happened**: when the Primary's object says so, the Secondary's image is one with length
and a hash of a target that was established for the name and hardware the Secondary tells, and it is recorded as its current
version. This holds whatever was lost before and whatever else happened to the Secondary. -/
theorem C77_installed {s0 : SecId.State} {t : Target} {st st' : Ip.St} {r : InstResult} (hn : New s0) (hb : Bound a s0 (history fates 0 st'.asked))
    (hl : ∀ o ∈ history fates 0 st'.asked, ¬ Loses o) (ha : AllSuit a (history fates 0 st'.asked))
    (h : Ip.install (peer a fates s0) t st = (.ok r, st')) (hr : r.success = true) :
    ∃ s' tgt b c sops ops s1, ∃ db : VersionDb, after a fates s0 0 st'.asked = .ok s' ∧ s'.core.firmware = some b ∧ Sec.Correct a.hashing tgt b ∧
      s'.core.name = tgt.filename ∧ s'.core.versions = db.saveInstalledVersion a.g.env s'.core.serial tgt .current ∧
      ops <+: history fates 0 st'.asked ∧ SecId.run a s0 ops = .ok s1 ∧ Since a s0 s1 ops c sops ∧ Sec.Authorised a.g.env a.hashing c sops tgt ∧
      ∀ x hw key, Says a s0 (history fates 0 st'.asked) x hw key → c.serial = x ∧ c.hwid = hw := by
  obtain ⟨ops, s1, s', rn, f, h2, hh, h1, hs, hs'⟩ := install_arrived h hr
  have hup : s1.core.up = true := up_of_answer (by simp) hs
  rw [hh] at ha hl
  have ha' : AllSuit a ops := fun cfg c f cfg' c' f' n k m m' => ha cfg c f cfg' c' f' n k (List.mem_append_left _ m) (List.mem_append_left _ m')
  obtain ⟨c, sops, hsi, -⟩ := SecId.C76_refines hn ops h1 ha' hup
  have hsi' := hsi
  obtain ⟨⟨before, cfg, clock, fuel, rest, n, e1, e2⟩, q1, q2, q3, q4, q5, q6⟩ := hsi'
  have hlo : ∀ o ∈ sops, ¬ Sec.Lossy o := by
    rw [e2]
    intro o ho
    rcases List.mem_cons.1 ho with rfl | ho
    · exact fun h => h
    · exact core_loses (ops := rest) (fun o ho => hl o (by rw [e1]; simp [ho])) o ho
  obtain ⟨t1, b1, p1, -, p3, p4⟩ := Sec.C27_partial a.g.env a.hashing c s1.core s'.core sops _ _ q3 hlo q1 (fun t ht => hb ops s1 t ⟨_, hh.symm⟩ h1 ht) hs (.inr ⟨rn, f, rfl, rfl⟩)
  obtain ⟨t2, b2, p5, p6, -, p7⟩ := Sec.C26_partial a.g.env a.hashing c s1.core s'.core sops _ _ q2 q1 hs (.inr ⟨rn, f, rfl, rfl⟩)
  rw [p1] at p5
  cases p5
  obtain ⟨_, _, t3, b3, h0, -, -, p8, -, -, -, -, -, -, p9⟩ := Sec.step_firmware hs (.inr ⟨rn, f, rfl, rfl⟩)
  rw [p1] at p8
  cases p8
  obtain ⟨g1, g2, -⟩ := Sec.step_pending hs
  rcases p9 with ⟨-, -, n1, n2⟩ | ⟨hx, -⟩
  · refine ⟨s', t1, b1, c, sops, ops, s1, s1.core.versions, h2, p3, p4, n1, by rw [g1]; exact n2, ⟨_, hh.symm⟩, h1, hsi, p7, fun x hw key hsay => ?_⟩
    obtain ⟨z, z', hz, hst⟩ := hsay
    have hz' := C77_life _ _ _ h2
    rw [hz'] at hz
    cases hz
    obtain ⟨-, -, rfl, rfl, -⟩ := SecId.says_state hst
    exact ⟨q5.trans g1.symm, q6.trans g2.symm⟩
  · cases hx

/-- **Metadata reported as accepted were accepted**: when the Primary's object says so, the Secondary got exactly the documents of the
bundle and has a target which, by the metadata it verified, the Director assigns to the name and hardware it tells and the Image
repository lists. -/
theorem C77_metadata {s0 : SecId.State} {b : Option Ip.Bundle} {st st' : Ip.St} {r : InstResult}
    (h : Ip.putMetadata (peer a fates s0) b st = (.ok r, st')) (hr : r.success = true) :
    ∃ bundle s' tgt ops m clock fuel, b = some bundle ∧ after a fates s0 0 st'.asked = .ok s' ∧ s'.core.up = true ∧ s'.core.pending = some tgt ∧
      DirectorAssigns a.g.env s'.core.serial s'.core.hwid s'.core.w tgt ∧ ImageApproves a.g.env s'.core.w tgt ∧
      history fates 0 st'.asked = ops ++ [.putMeta m clock fuel] ∧
      (∀ role, m.director.lookup role = document bundle .director role ∧ m.image.lookup role = document bundle .image role) ∧
      ∀ x hw key, Says a s0 (history fates 0 st'.asked) x hw key → s'.core.serial = x ∧ s'.core.hwid = hw := by
  obtain ⟨bundle, l, req, rfl, e, hc, hm⟩ := Ip.C57_metadata h hr
  have hne : peer a fates s0 (st.asked ++ l ++ [req]) ≠ .nothing := by
    rw [← e]
    rcases hm with hp | ⟨c, d, hp, -⟩ <;> rw [hp] <;> simp
  obtain ⟨s1, s', h1, h2, hcs⟩ := peer_ok hne
  rw [← e] at h2 hcs
  rcases hcs with ⟨v, rfl, -⟩ | ⟨o, y, ho, hs, hp, hh⟩
  · rcases hc with hc | ⟨_, _, hc, -⟩ <;> cases hc
  · rcases hc with rfl | ⟨d, i, rfl, hdoc⟩
    · cases ho
    · cases ho
      obtain ⟨x, rfl, hs, hs'⟩ := other_ok hs
      rw [hp] at hm
      have hx : x = .ok := by
        rcases hm with he | ⟨c, d, he, hf⟩
        · cases he
        · cases he
          exact code_fine hf
      subst hx
      have hest : s'.core.up = true ∧ ∃ t, s'.core.pending = some t ∧ Sec.Established a.g.env s'.core t (.putMeta ⟨d, i⟩ (fates (st.asked ++ l).length).clock (fates (st.asked ++ l).length).fuel) := by
        have hs2 := hs
        rcases Sec.request_ok hs2 with ⟨-, hx, -⟩ | ⟨hu, o, z, hm, -, hq⟩
        · cases hx
        · obtain ⟨w', ⟨ho, -⟩ | ⟨t, rfl, rfl, hd, hi, -⟩⟩ := Sec.putMeta_cases hm
          · rcases hq with ⟨x, rfl, hx, -⟩ | ⟨_, -, hx, -⟩
            · cases hx; exact absurd rfl ho
            · cases hx
          · rcases hq with ⟨x, -, -, hq⟩ | ⟨_, he, -⟩
            · rw [hq]
              exact ⟨hu, t, rfl, hd, hi⟩
            · cases he
      obtain ⟨g0, tgt, g1, g2, g3⟩ := hest
      refine ⟨bundle, s', tgt, _, ⟨d, i⟩, _, _, rfl, h2, g0, g1, g2, g3, hh, hdoc, fun x hw key hsay => ?_⟩
      obtain ⟨z, z', hz, hst⟩ := hsay
      rw [C77_life _ _ _ h2] at hz
      cases hz
      obtain ⟨-, -, rfl, rfl, -⟩ := SecId.says_state hst
      exact ⟨rfl, rfl⟩

/-- The request for the manifest as it reached the Secondary. -/
theorem manifest_arrived {s0 : SecId.State} {st st' : Ip.St} {text : String} (h : Ip.getManifest (peer a fates s0) st = (.ok (some text), st')) :
    ∃ ops s1 s' j, after a fates s0 0 st'.asked = .ok s' ∧ history fates 0 st'.asked = ops ++ [.getManifest] ∧ SecId.run a s0 ops = .ok s1 ∧
      SecId.step a s1 .getManifest = .ok (some (.manifest j), s') ∧ text = a.g.env.canon j := by
  obtain ⟨l, e, hp⟩ := Ip.C57_manifest h
  have hne : peer a fates s0 (st.asked ++ l ++ [.manifest]) ≠ .nothing := by
    rw [← e, hp]
    simp
  obtain ⟨s1, s', h1, h2, hc⟩ := peer_ok hne
  rw [← e] at h2 hc
  rcases hc with ⟨v, hv, -⟩ | ⟨o, y, ho, hs, hp', hh⟩
  · cases hv
  · cases ho
    rw [hp] at hp'
    cases y with
    | manifest j =>
      injection hp' with hp'
      injection hp' with hp'
      exact ⟨_, s1, s', j, h2, hh, h1, hs, hp'⟩
    | _ => cases hp'

theorem getManifest_state {s s' : SecId.State} {y : SecId.Reply} (h : SecId.step a s .getManifest = .ok (some y, s')) : s' = { s with drawn := s.drawn + 1 } := by
  change SecId.request _ _ _ = _ at h
  unfold SecId.request at h
  split at h
  · obtain ⟨o, s1, hm, hr⟩ := SecId.observe_ok h
    obtain ⟨rfl, -⟩ := SecId.getManifest_cases hm
    rcases hr with ⟨_, -, -, rfl⟩ | ⟨_, -, hr, -⟩
    · rfl
    · cases hr
  · cases h

/-- **The manifest the Primary gets is about the image the Secondary has**, under the name and signed by the key the Secondary told at
any earlier time, and reads as what the Secondary wrote. -/
theorem C77_told {s0 : SecId.State} {ty : KeyType} {st st' : Ip.St} {text : String} (hn : New s0) (hg : Gen.Sound a.g) (hw : SecId.KeysWork a ty)
    (ho : SecId.OneType (history fates 0 st'.asked) ty) (h : Ip.getManifest (peer a fates s0) st = (.ok (some text), st'))
    (hlen : ∀ s b, after a fates s0 0 st'.asked = .ok s → s.core.firmware = some b → b.length ≤ 18446744073709551615)
    {ops more : List SecId.Op} {x hwid : String} {key : PublicKey} (hsay : Says a s0 ops x hwid key)
    (hpre : history fates 0 st'.asked = ops ++ more ++ [.getManifest]) :
    ∃ s' i, after a fates s0 0 st'.asked = .ok s' ∧ EcuManifest a.g.env (a.g.env.parseJson text) key x i none ∧
      match s'.core.firmware with
      | some b => i = ⟨s'.core.name, b.length, a.hashing.digest .sha256 b⟩
      | none => i = ⟨"unknown", 0, a.hashing.digest .sha256 []⟩ := by
  obtain ⟨l, s1, s', j, h2, hh, h1, hs, rfl⟩ := manifest_arrived h
  rw [hpre] at hh ho
  obtain ⟨rfl, -⟩ := List.append_inj' hh rfl
  have ho' : SecId.OneType (ops ++ more) ty := fun cfg c f hm => ho cfg c f (List.mem_append_left _ hm)
  obtain ⟨z, i, q1, q2, q3⟩ := SecId.C76_manifest hn hw ops more ho' hsay ⟨s1, s', h1, hs⟩
  rw [h1] at q1
  cases q1
  have e := getManifest_state hs
  have hf : s'.core = s1.core := by rw [e]
  refine ⟨s', i, h2, ?_, by rw [hf]; exact q3⟩
  have hc : Gen.Canonical j := by
    obtain ⟨-, hj⟩ := SecId.reports_state hs
    refine Man.sign_canonical (Man.ecuPart_canonical ?_) hj
    unfold SecId.image Sec.installedImage
    cases hfw : s1.core.firmware with
    | none => simp
    | some b => exact hlen s' b h2 (by rw [hf]; exact hfw)
  rw [hg.reads j hc]
  exact q2

end Pair

end Aktualizr
