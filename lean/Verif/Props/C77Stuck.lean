import Verif.Props.C77

/-! # C77: an answer lost at the end of an upload -/

namespace Aktualizr

open M Spec

namespace Pair

open Ip (Req Resp)
open Sec (Bytes)
open SecId (Around)

variable {a : Around} {fates : Nat → Fate}

/-- Something other than a request to install. -/
def NoInstall : SecId.Op → Prop
  | .install _ _ => False
  | _ => True

theorem core_upload {env : Env} {hs : Sec.Hashing} {s s' : Sec.State} {io : Sec.Io} {d b : Bytes} {x : Option Sec.Answer}
    (h : Sec.step env hs s (.upload io d) = .ok (x, s')) (hb : s.newtarget = some b) (ht : ∀ t, s.pending = some t → t.length ≤ b.length) :
    s'.newtarget = some b ∧ x ≠ some .ok := by
  rcases Sec.request_ok h with ⟨-, rfl, rfl⟩ | ⟨-, o, s1, hm, hu, h⟩
  · exact ⟨hb, by simp⟩
  · have key : s1.newtarget = some b ∧ o ≠ .ok .ok := by
      rcases Sec.upload_cases hm with ⟨-, rfl, rfl⟩ | ⟨t, hp, hr⟩
      · exact ⟨hb, by simp⟩
      · obtain ⟨-, ⟨rfl, rfl⟩ | ⟨e, -, rfl⟩ | ⟨w, rfl⟩ | ⟨_, hl, -⟩⟩ := Sec.receiveData_cases hr
        · exact ⟨hb, by simp⟩
        · have e : s1.newtarget = some (s.newtarget.getD []) := e
          rw [hb] at e
          exact ⟨e, by simp⟩
        · exact absurd rfl (hu w)
        · have hl : (s.newtarget.getD []).length < t.length := hl
          rw [hb] at hl
          have := ht t hp
          simp only [Option.getD_some] at hl
          omega
    rcases h with ⟨y, rfl, rfl, rfl⟩ | ⟨e, rfl, rfl, rfl⟩
    · exact ⟨key.1, fun e => key.2 (by cases e; rfl)⟩
    · exact ⟨key.1, by simp⟩

theorem other_core {o : Sec.Op} {s s' : SecId.State} {y : Option SecId.Reply} (h : SecId.other a o s = .ok (y, s')) :
    ∃ x, y = x.map .answer ∧ Sec.step a.g.env a.hashing s.core o = .ok (x, s'.core) := by
  unfold SecId.other at h
  obtain ⟨q, h1, h2⟩ := exc_bind_ok.1 h
  injection h2 with h2
  rw [Prod.mk.injEq] at h2
  obtain ⟨h3, h4⟩ := h2
  rw [← h4]
  exact ⟨q.1, h3.symm, h1⟩

theorem step_stuck {s s' : SecId.State} {o : SecId.Op} {y : Option SecId.Reply} {b : Bytes} (ho : NoInstall o) (h : SecId.step a s o = .ok (y, s'))
    (hb : s.core.newtarget = some b) (ht : ∀ t, s.core.pending = some t → t.length ≤ b.length) : s'.core.newtarget = some b := by
  cases o with
  | start cfg c f =>
    obtain ⟨o, s1, hm, hr⟩ := SecId.observe_ok (show SecId.observe _ _ _ = _ from h)
    have := SecId.start_newtarget hm
    rcases hr with ⟨_, -, -, rfl⟩ | ⟨_, -, -, rfl⟩ <;> exact this.trans hb
  | place f => cases h; exact hb
  | getInfo =>
    change SecId.request _ _ _ = _ at h
    unfold SecId.request at h
    split at h
    · obtain ⟨o, s1, hm, hr⟩ := SecId.observe_ok h
      obtain ⟨rfl, -⟩ := SecId.getInfo_cases hm
      rcases hr with ⟨_, -, -, rfl⟩ | ⟨_, -, -, rfl⟩ <;> exact hb
    · cases h; exact hb
  | getManifest =>
    change SecId.request _ _ _ = _ at h
    unfold SecId.request at h
    split at h
    · obtain ⟨o, s1, hm, hr⟩ := SecId.observe_ok h
      obtain ⟨rfl, -⟩ := SecId.getManifest_cases hm
      rcases hr with ⟨_, -, -, rfl⟩ | ⟨_, -, -, rfl⟩ <;> exact hb
    · cases h; exact hb
  | putMeta m c f =>
    obtain ⟨x, -, h⟩ := other_core h
    rcases Sec.request_ok h with ⟨-, -, h⟩ | ⟨-, o, s1, hm, -, h⟩
    · rw [h]; exact hb
    · obtain ⟨w', ⟨-, rfl⟩ | ⟨t, -, rfl, -⟩⟩ := Sec.putMeta_cases hm <;>
        rcases h with ⟨_, -, -, h⟩ | ⟨_, -, -, h⟩ <;> rw [h] <;> exact hb
  | upload io d =>
    obtain ⟨x, -, h⟩ := other_core h
    exact (core_upload h hb ht).1
  | install r f => exact ho.elim

/-- **A whole upload that is left behind stays**: once a Secondary has as many bytes as its targets have, whatever is sent and however
often it is started, they remain and no upload is accepted, until it is asked to install or gets a longer target. -/
theorem C77_left_behind {s s' : SecId.State} {b : Bytes} (ops : List SecId.Op) (hb : s.core.newtarget = some b) (ho : ∀ o ∈ ops, NoInstall o)
    (ht : ∀ pre s1 t, pre <+: ops → SecId.run a s pre = .ok s1 → s1.core.pending = some t → t.length ≤ b.length) (h : SecId.run a s ops = .ok s') :
    s'.core.newtarget = some b ∧ ∀ io d s2, SecId.step a s' (.upload io d) ≠ .ok (some (.answer .ok), s2) := by
  have keep : s'.core.newtarget = some b := by
    induction ops using Sec.snoc_ind generalizing s' with
    | h0 => cases h; exact hb
    | h1 l o ih =>
      obtain ⟨s1, r, h1, h2⟩ := SecId.run_snoc h
      have := ih (fun x hx => ho x (List.mem_append_left _ hx)) (fun pre s1 t hp => ht pre s1 t (hp.trans (List.prefix_append _ _))) h1
      exact step_stuck (ho o (List.mem_append_right _ (.head _))) h2 this (fun t hp => ht l s1 t (List.prefix_append _ _) h1 hp)
  refine ⟨keep, fun io d s2 hs => ?_⟩
  obtain ⟨x, hx, hs⟩ := other_core hs
  refine (core_upload hs keep (fun t hp => ht ops s' t (List.prefix_refl _) h hp)).2 ?_
  cases x with
  | none => cases hx
  | some x => cases hx; rfl

/-- **… and the Primary cannot send it again**: it then reports every attempt to send firmware as failed, as long as that holds. -/
theorem C77_stuck {s0 s : SecId.State} {st st' : Ip.St} {n : Nat} {p : Ip.Provider} {t : Target} {r : InstResult} {b : Bytes}
    (hs : after a fates s0 0 st.asked = .ok s) (hb : s.core.newtarget = some b) (ho : ∀ o ∈ (fates st.asked.length).before, NoInstall o)
    (ht : ∀ pre s1 t, pre <+: (fates st.asked.length).before → SecId.run a s pre = .ok s1 → s1.core.pending = some t → t.length ≤ b.length)
    (hpos : 0 < t.length) (hf : t.isOstree = false) (h : Ip.sendFirmware (peer a fates s0) n p t st = some (.ok r, st')) : r.success = false := by
  cases hr : r.success with
  | false => rfl
  | true =>
    exfalso
    have none_of : ∀ q, operation (fates st.asked.length) q = none → (∀ v, q ≠ .version v) → peer a fates s0 (st.asked ++ [q]) = .nothing := by
      intro q hq hv
      refine Classical.byContradiction fun hne => ?_
      obtain ⟨_, _, -, -, ⟨v, h, -⟩ | ⟨_, _, h, -⟩⟩ := peer_ok hne
      · exact hv v h
      · rw [hq] at h; cases h
    rcases Ip.C57_firmware h hr with ⟨-, h1, -⟩ | ⟨-, -, image, chunks, -, e, hj, hl, hacc⟩ | ⟨-, data, -, e, hp⟩
    · rw [hf] at h1; cases h1
    · cases chunks with
      | nil =>
        have := congrArg List.length hj
        simp only [List.flatten_nil, List.length_nil, List.length_take] at this
        omega
      | cons c cs =>
        have h1 := hacc [] c cs rfl
        simp only [List.nil_append, List.map_cons, List.map_nil] at h1
        obtain ⟨code', desc, hp, hfine⟩ := h1
        obtain ⟨s1, s', g1, g2, ⟨v, hv, -⟩ | ⟨o, y, go, gs, gp, -⟩⟩ := peer_ok (a := a) (fates := fates) (s0 := s0) (l := st.asked) (r := .uploadData c) (by rw [hp]; simp)
        · cases hv
        · cases go
          rw [SecId.run_append, C77_life _ _ _ hs, exc_bind_of_ok] at g1
          obtain ⟨-, hno⟩ := C77_left_behind _ hb ho ht g1
          obtain ⟨x, rfl, gs2, -⟩ := other_ok gs
          rw [hp] at gp
          cases gp
          rw [code_fine hfine] at gs
          exact hno _ _ _ gs
    · rw [e, none_of _ rfl (by simp)] at hp
      cases hp

end Pair

end Aktualizr
