import Verif.Model.IpSecondary
import Verif.Lemmas.Monad
import Verif.Spec.Toy
import Verif.Props.C26

/-!
# C42, C43: uploads to an IP Secondary, protocol versions

* `C42_success`: a successful upload sent exactly the first `length` bytes of the image in chunks of
  1 to 1024 bytes, each of them acknowledged.
* `C42_ends`: an upload of an image that is long enough ends; `C42_complete`: it succeeds if the
  Secondary accepts every chunk and the image has the right length.
* `C42_endless`: with an image that is too short and a Secondary that accepts every chunk it never
  ends; `C42_too_long`: an image that is too long is refused only after sending too much.
* `C43_*`: see there.
-/

namespace Aktualizr.Spec

open Aktualizr.Ip

/-- The Secondary acknowledges the last of the requests. -/
def Accepts (peer : Peer) (asked : List Req) : Prop :=
  ∃ code desc, peer asked = .uploadData code desc ∧ (code = 0 ∨ code = 1)

/-- The Secondary accepts whatever is uploaded. -/
def AcceptsAll (peer : Peer) : Prop := ∀ asked data, Accepts peer (asked ++ [.uploadData data])

/-- The number of an answer of aktualizr-secondary. -/
def answerCode : Sec.Answer → Int
  | .ok => ResultCode.ok.num
  | .verificationFailed => ResultCode.verificationFailed.num
  | .downloadFailed => ResultCode.downloadFailed.num
  | .installFailed => ResultCode.installFailed.num
  | .internalError => ResultCode.internalError.num
  | .generalError => ResultCode.generalError.num

/-- aktualizr-secondary with the file agent, on a disk that keeps what is written, as the other
end: the answer to a request and the next state. -/
def fileStep (env : Env) (hs : Sec.Hashing) (clock : Nat → TimeStamp) (s : Sec.State) (r : Req) : Resp × Sec.State :=
  let ask (o : Sec.Op) (f : Int → Resp) : Resp × Sec.State := match Sec.step env hs s o with
    | .ok (some a, s') => (f (answerCode a), s')
    | .ok (none, s') => (.nothing, s')
    | .error _ => (.nothing, { s with up := false })
  match r with
  | .version v => (if s.up then versionHdlr v else .nothing, s)
  | .info => (if s.up then .info else .nothing, s)
  | .putMeta2 d i => ask (.putMeta ⟨d, i⟩ clock 1000) (fun c => .putMeta2 c "")
  | .uploadData data => ask (.upload { kept := data.length } data) (fun c => .uploadData c "")
  | .install _ => ask (.install true 1000) (fun c => .install2 c "")
  | _ => (.nothing, s)

/-- Its state after a number of requests. -/
def fileState (env : Env) (hs : Sec.Hashing) (clock : Nat → TimeStamp) (s : Sec.State) (asked : List Req) : Sec.State :=
  asked.foldl (fun s r => (fileStep env hs clock s r).2) s

/-- Its answers. -/
def filePeer (env : Env) (hs : Sec.Hashing) (clock : Nat → TimeStamp) (s : Sec.State) : Peer := fun asked =>
  match asked.getLast? with
  | none => .nothing
  | some r => (fileStep env hs clock (fileState env hs clock s asked.dropLast) r).1

/-- The protocol versions an implementation of the Primary speaks. -/
def Speaks (v : Nat) : Prop := v = 1 ∨ v = 2

end Aktualizr.Spec

namespace Aktualizr.Ip

open Aktualizr.Spec
open Aktualizr.Sec (Bytes)

theorem uploadData_eq (peer : Peer) (data : Bytes) (s : St) : ∃ r,
    uploadData peer data s = (.ok r, { s with asked := s.asked ++ [.uploadData data] }) ∧
    (r.success = true ↔ Accepts peer (s.asked ++ [.uploadData data])) := by
  unfold uploadData
  rw [M.run_bind (show rpc peer (.uploadData data) s = (.ok (peer (s.asked ++ [.uploadData data])), _) from rfl)]
  unfold Accepts
  cases h : peer (s.asked ++ [.uploadData data]) with
  | uploadData code desc =>
    refine ⟨remote code desc, rfl, ?_⟩
    simp [remote, InstResult.ofCode]
  | nothing => exact ⟨_, rfl, by simp [InstResult.ofCode]; decide⟩
  | _ => exact ⟨_, rfl, by simp [InstResult.ofCode]; decide⟩

/-- What a finished loop did. -/
structure Done (peer : Peer) (size : Nat) (rest : Bytes) (total : Nat) (s : St) (r : InstResult) (tot : Nat) (s' : St)
    (chunks : List Bytes) : Prop where
  version : s'.version = s.version
  asked : s'.asked = s.asked ++ chunks.map .uploadData
  joined : chunks.flatten = rest.take (chunkSize * chunks.length)
  sum : tot = total + chunks.flatten.length
  small : ∀ c ∈ chunks, c.length ≤ chunkSize
  nonempty : size ≤ total + rest.length → ∀ c ∈ chunks, c ≠ []
  acked : ∀ pre c post, chunks = pre ++ c :: post → post ≠ [] ∨ r.success = true →
    Accepts peer (s.asked ++ (pre ++ [c]).map .uploadData)
  stopped : r.success = true → size ≤ tot

theorem loop_done {peer : Peer} {size : Nat} : ∀ (n : Nat) {rest : Bytes} {total : Nat} {last : InstResult} {s : St}
    {r : InstResult} {tot : Nat} {s' : St}, uploadLoop peer size n rest total last s = some (r, tot, s') →
    ∃ chunks, Done peer size rest total s r tot s' chunks
  | 0, rest, total, last, s, r, tot, s', h => by simp [uploadLoop] at h
  | n + 1, rest, total, last, s, r, tot, s', h => by
    simp only [uploadLoop] at h
    by_cases hc : (decide (total < size) && last.success) = true
    · rw [if_pos hc] at h
      obtain ⟨r1, e1, a1⟩ := uploadData_eq peer (rest.take chunkSize) s
      rw [e1] at h
      simp only at h
      obtain ⟨chunks, d⟩ := loop_done n h
      simp only [Bool.and_eq_true, decide_eq_true_eq] at hc
      refine ⟨rest.take chunkSize :: chunks, d.version, ?_, ?_, ?_, ?_, ?_, ?_, d.stopped⟩
      · rw [d.asked]; simp
      · rw [List.flatten_cons, d.joined, List.length_cons, Nat.mul_succ, Nat.add_comm, List.take_add]
      · rw [d.sum, List.flatten_cons, List.length_append]; omega
      · intro c hc'
        rcases List.mem_cons.1 hc' with rfl | hc'
        · simp only [List.length_take]; omega
        · exact d.small c hc'
      · intro hlen c hc'
        rcases List.mem_cons.1 hc' with rfl | hc'
        · intro he
          have := congrArg List.length he
          simp only [List.length_take, List.length_nil, chunkSize] at this
          omega
        · refine d.nonempty ?_ c hc'
          simp only [List.length_take, List.length_drop]
          omega
      · intro pre c post he hp
        cases pre with
        | nil =>
          simp only [List.nil_append, List.cons.injEq] at he
          obtain ⟨rfl, rfl⟩ := he
          simp only [List.nil_append, List.map_cons, List.map_nil]
          rw [← a1]
          cases n with
          | zero => simp [uploadLoop] at h
          | succ m =>
            simp only [uploadLoop] at h
            by_cases hr : r1.success = true
            · exact hr
            · simp only [Bool.not_eq_true] at hr
              simp only [hr, Bool.and_false, Bool.false_eq_true, if_false, Option.some.injEq, Prod.mk.injEq] at h
              obtain ⟨rfl, -, h3⟩ := h
              rcases hp with hp | hp
              · exfalso
                have hasked := d.asked
                rw [← h3] at hasked
                simp only at hasked
                have hlen := congrArg List.length hasked
                simp only [List.length_append, List.length_map] at hlen
                exact hp (List.length_eq_zero_iff.1 (by omega))
              · rw [hr] at hp; simp at hp
        | cons x pre =>
          simp only [List.cons_append, List.cons.injEq] at he
          obtain ⟨rfl, he⟩ := he
          have := d.acked pre c post he hp
          simpa using this
    · rw [if_neg hc] at h
      simp only [Option.some.injEq, Prod.mk.injEq] at h
      obtain ⟨rfl, rfl, rfl⟩ := h
      refine ⟨[], rfl, by simp, by simp, by simp, by simp, by simp, by simp, ?_⟩
      intro hs
      simp only [hs, Bool.and_true, decide_eq_true_eq] at hc
      omega

/-- A successful upload: the chunks sent, together, are the first `size` bytes of the image (which
has them), none is empty or longer than 1024 bytes, and the Secondary acknowledged each. -/
theorem C42_success {peer : Peer} {n size : Nat} {image : Bytes} {s s' : St} {r : InstResult}
    (h : uploadFirmware peer n size image s = some (r, s')) (hr : r.success = true) :
    ∃ chunks : List Bytes, s'.asked = s.asked ++ chunks.map .uploadData ∧ chunks.flatten = image.take size ∧
      size ≤ image.length ∧ (∀ c ∈ chunks, 0 < c.length ∧ c.length ≤ 1024) ∧
      ∀ pre c post, chunks = pre ++ c :: post → Accepts peer (s.asked ++ (pre ++ [c]).map .uploadData) := by
  unfold uploadFirmware at h
  cases hl : uploadLoop peer size n image 0 (.ofCode .ok "") s with
  | none => rw [hl] at h; simp at h
  | some x =>
    obtain ⟨last, tot, s1⟩ := x
    rw [hl] at h
    simp only [Option.some.injEq, Prod.mk.injEq] at h
    obtain ⟨hres, rfl⟩ := h
    obtain ⟨chunks, d⟩ := loop_done n hl
    have hok : last.success = true ∧ tot = size := by
      by_cases h1 : (last.success && tot == size) = true
      · simpa using h1
      · rw [if_neg h1] at hres
        by_cases h2 : last.success = true
        · rw [if_neg (by simp [h2])] at hres
          subst hres
          simp [InstResult.ofCode, ResultCode.downloadFailed] at hr
        · rw [if_pos (by simpa using h2)] at hres
          subst hres
          exact absurd hr h2
    have hlen : chunks.flatten.length = size := by have := d.sum; omega
    have hle : size ≤ image.length := by
      rw [d.joined, List.length_take] at hlen
      omega
    have htake : chunks.flatten = image.take size := by
      rw [d.joined, List.length_take] at hlen
      rw [d.joined]
      by_cases hc : chunkSize * chunks.length ≤ image.length
      · rw [Nat.min_eq_left hc] at hlen; rw [hlen]
      · rw [Nat.min_eq_right (by omega)] at hlen
        rw [List.take_of_length_le (by omega), List.take_of_length_le (by omega)]
    refine ⟨chunks, d.asked, htake, hle, fun c hc => ⟨?_, d.small c hc⟩, fun pre c post he => d.acked pre c post he (.inr hok.1)⟩
    exact List.length_pos_iff.2 (d.nonempty (by omega) c hc)

/-- Whatever an upload does, ending or not being reported as a success: what was sent is a prefix
of the image in chunks of at most 1024 bytes, and nothing follows a chunk that was not accepted. -/
theorem C42_prefix {peer : Peer} {n size : Nat} {image : Bytes} {s s' : St} {r : InstResult}
    (h : uploadFirmware peer n size image s = some (r, s')) :
    ∃ chunks : List Bytes, s'.asked = s.asked ++ chunks.map .uploadData ∧ chunks.flatten <+: image ∧
      (∀ c ∈ chunks, c.length ≤ 1024) ∧
      ∀ pre c post, chunks = pre ++ c :: post → post ≠ [] → Accepts peer (s.asked ++ (pre ++ [c]).map .uploadData) := by
  unfold uploadFirmware at h
  cases hl : uploadLoop peer size n image 0 (.ofCode .ok "") s with
  | none => rw [hl] at h; simp at h
  | some x =>
    obtain ⟨last, tot, s1⟩ := x
    rw [hl] at h
    simp only [Option.some.injEq, Prod.mk.injEq] at h
    obtain ⟨-, rfl⟩ := h
    obtain ⟨chunks, d⟩ := loop_done n hl
    exact ⟨chunks, d.asked, by rw [d.joined]; exact List.take_prefix _ _, d.small, fun pre c post he hp => d.acked pre c post he (.inl hp)⟩

theorem loop_ends {peer : Peer} {size : Nat} : ∀ (n : Nat) {rest : Bytes} {total : Nat} {last : InstResult} {s : St},
    size ≤ total + rest.length → size ≤ total + chunkSize * n → ∃ x, uploadLoop peer size (n + 1) rest total last s = some x
  | 0, rest, total, last, s, _, h2 => by
    have : ¬(decide (total < size) && last.success) = true := by
      simp only [Bool.and_eq_true, decide_eq_true_eq, not_and]
      intro; omega
    exact ⟨_, by simp only [uploadLoop]; rw [if_neg this]⟩
  | n + 1, rest, total, last, s, h1, h2 => by
    rw [uploadLoop]
    by_cases hc : (decide (total < size) && last.success) = true
    · rw [if_pos hc]
      obtain ⟨r1, e1, -⟩ := uploadData_eq peer (rest.take chunkSize) s
      rw [e1]
      simp only
      refine loop_ends n ?_ ?_
      · simp only [List.length_take, List.length_drop]; omega
      · simp only [List.length_take, chunkSize] at *; omega
    · exact ⟨_, by rw [if_neg hc]⟩

/-- The upload of an image that has at least as many bytes as announced ends, whatever the
Secondary answers, after at most one request per started 1024 bytes. -/
theorem C42_ends {peer : Peer} {size : Nat} {image : Bytes} {s : St} (h : size ≤ image.length) :
    ∃ x, uploadFirmware peer ((size + 1023) / 1024 + 1) size image s = some x := by
  obtain ⟨⟨last, tot, s1⟩, hx⟩ := loop_ends (peer := peer) (size := size) ((size + 1023) / 1024) (rest := image) (total := 0)
    (last := .ofCode .ok "") (s := s) (by omega) (by simp only [chunkSize]; omega)
  exact ⟨_, by unfold uploadFirmware; rw [hx]⟩

theorem loop_accepts {peer : Peer} (hp : AcceptsAll peer) {size : Nat} : ∀ (n : Nat) {rest : Bytes} {total : Nat} {last : InstResult} {s : St}
    {r : InstResult} {tot : Nat} {s' : St}, last.success = true →
    uploadLoop peer size n rest total last s = some (r, tot, s') → r.success = true
  | 0, rest, total, last, s, r, tot, s', _, h => by simp [uploadLoop] at h
  | n + 1, rest, total, last, s, r, tot, s', hl, h => by
    simp only [uploadLoop] at h
    by_cases hc : (decide (total < size) && last.success) = true
    · rw [if_pos hc] at h
      obtain ⟨r1, e1, a1⟩ := uploadData_eq peer (rest.take chunkSize) s
      rw [e1] at h
      exact loop_accepts hp n (a1.2 (hp _ _)) h
    · rw [if_neg hc] at h
      simp only [Option.some.injEq, Prod.mk.injEq] at h
      rw [← h.1]; exact hl

/-- An image of the announced length is uploaded if the Secondary accepts every chunk. -/
theorem C42_complete {peer : Peer} (hp : AcceptsAll peer) {size : Nat} {image : Bytes} {s : St} (h : image.length = size) :
    ∃ n r s', uploadFirmware peer n size image s = some (r, s') ∧ r.success = true := by
  obtain ⟨⟨last, tot, s1⟩, hx⟩ := loop_ends (peer := peer) (size := size) ((size + 1023) / 1024) (rest := image) (total := 0)
    (last := .ofCode .ok "") (s := s) (by omega) (by simp only [chunkSize]; omega)
  have hs := loop_accepts hp _ (by decide) hx
  obtain ⟨chunks, d⟩ := loop_done _ hx
  have h1 := d.stopped hs
  have h2 : tot = size := by
    have := d.sum
    rw [d.joined, List.length_take] at this
    omega
  refine ⟨(size + 1023) / 1024 + 1, .ofCode .ok "", s1, ?_, by decide⟩
  unfold uploadFirmware
  rw [hx]
  simp [hs, h2]

theorem loop_endless {peer : Peer} (hp : AcceptsAll peer) {size : Nat} : ∀ (n : Nat) {rest : Bytes} {total : Nat} {last : InstResult} {s : St},
    last.success = true → total + rest.length < size → uploadLoop peer size n rest total last s = none
  | 0, rest, total, last, s, _, _ => rfl
  | n + 1, rest, total, last, s, hl, h => by
    have hc : (decide (total < size) && last.success) = true := by simp [hl]; omega
    rw [uploadLoop, if_pos hc]
    obtain ⟨r1, e1, a1⟩ := uploadData_eq peer (rest.take chunkSize) s
    rw [e1]
    refine loop_endless hp n (a1.2 (hp _ _)) ?_
    simp only [List.length_take, List.length_drop]
    omega

/-- If the image file is shorter than announced and the Secondary accepts every chunk, the upload
never ends: empty chunks are sent for ever. -/
theorem C42_endless {peer : Peer} (hp : AcceptsAll peer) {size : Nat} {image : Bytes} {s : St} (h : image.length < size) (n : Nat) :
    uploadFirmware peer n size image s = none := by
  unfold uploadFirmware
  rw [loop_endless hp n (by decide) (by omega)]

/-- If the image file is longer than announced, the upload is not successful unless the announced
length is a multiple of 1024 (or the Secondary refuses before). -/
theorem C42_too_long {peer : Peer} {n size : Nat} {image : Bytes} {s s' : St} {r : InstResult}
    (h : uploadFirmware peer n size image s = some (r, s')) (hl : size < image.length) (hm : size % 1024 ≠ 0) : r.success = false := by
  cases hr : r.success with
  | false => rfl
  | true =>
    exfalso
    unfold uploadFirmware at h
    cases hx : uploadLoop peer size n image 0 (.ofCode .ok "") s with
    | none => rw [hx] at h; simp at h
    | some x =>
      obtain ⟨last, tot, s1⟩ := x
      rw [hx] at h
      simp only [Option.some.injEq, Prod.mk.injEq] at h
      obtain ⟨hres, rfl⟩ := h
      obtain ⟨chunks, d⟩ := loop_done n hx
      have htot : tot ≠ size := by
        have := d.sum
        rw [d.joined, List.length_take] at this
        simp only [chunkSize] at this
        omega
      rw [if_neg (by simp [htot])] at hres
      by_cases h2 : last.success = true
      · rw [if_neg (by simp [h2])] at hres
        subst hres
        simp [InstResult.ofCode, ResultCode.downloadFailed] at hr
      · rw [if_pos (by simpa using h2)] at hres
        subst hres
        exact h2 hr

/-! ### Together with aktualizr-secondary -/

section Together

variable {env : Env} {hs : Sec.Hashing} {clock : Nat → TimeStamp} {s0 : Sec.State}

theorem filePeer_snoc (asked : List Req) (r : Req) :
    filePeer env hs clock s0 (asked ++ [r]) = (fileStep env hs clock (fileState env hs clock s0 asked) r).1 := by
  simp [filePeer]

theorem fileState_snoc (asked : List Req) (r : Req) :
    fileState env hs clock s0 (asked ++ [r]) = (fileStep env hs clock (fileState env hs clock s0 asked) r).2 := by
  simp [fileState]

theorem fileState_append (a b : List Req) :
    fileState env hs clock s0 (a ++ b) = fileState env hs clock (fileState env hs clock s0 a) b := by
  simp [fileState]

/-- The Secondary waits for more of the image. -/
structure Ready (s : Sec.State) (t : Target) (old : Bytes) : Prop where
  up : s.up = true
  pending : s.pending = some t
  new : (old = [] ∧ s.newtarget.getD [] = []) ∨ (old ≠ [] ∧ s.newtarget = some old ∧ ∃ h, s.hasher = some h)

theorem fileStep_upload {s : Sec.State} {t : Target} {old d : Bytes} {x : Hash} {l : List Hash} (h : Ready s t old)
    (hx : t.hashes = x :: l) (hk : x.type ≠ .unknown) (hl : old.length < t.length) :
    (fileStep env hs clock s (.uploadData d)).1 = .uploadData 0 "" ∧ Ready (fileStep env hs clock s (.uploadData d)).2 t (old ++ d) := by
  obtain ⟨h1, h2, h3⟩ := h
  rcases h3 with ⟨rfl, hn⟩ | ⟨ho, hn, hh, hhash⟩
  · have e := Sec.step_first (env := env) (hs := hs) (c := d) h1 h2 hn hx hk (by simpa using hl)
    simp only [Sec.whole] at e
    simp only [fileStep, e]
    refine ⟨rfl, h1, h2, ?_⟩
    by_cases hd : d = []
    · exact .inl ⟨by simp [hd], by simp [hd]⟩
    · exact .inr ⟨by simpa using hd, by simp, _, rfl⟩
  · have e := Sec.step_whole (env := env) (hs := hs) (c := d) h1 h2 hn ho hhash hl
    simp only [Sec.whole] at e
    simp only [fileStep, e]
    exact ⟨rfl, h1, h2, .inr ⟨by simp [ho], rfl, _, rfl⟩⟩

theorem loop_file_endless {t : Target} {x : Hash} {l : List Hash} (hx : t.hashes = x :: l) (hk : x.type ≠ .unknown) :
    ∀ (n : Nat) {rest : Bytes} {total : Nat} {last : InstResult} {st : St} {old : Bytes}, last.success = true →
    Ready (fileState env hs clock s0 st.asked) t old → old.length = total → total + rest.length < t.length →
    uploadLoop (filePeer env hs clock s0) t.length n rest total last st = none
  | 0, rest, total, last, st, old, _, _, _, _ => rfl
  | n + 1, rest, total, last, st, old, hl, hr, ho, h => by
    have hc : (decide (total < t.length) && last.success) = true := by simp [hl]; omega
    rw [uploadLoop, if_pos hc]
    obtain ⟨r1, e1, a1⟩ := uploadData_eq (filePeer env hs clock s0) (rest.take chunkSize) st
    obtain ⟨q1, q2⟩ := fileStep_upload (env := env) (hs := hs) (clock := clock) (d := rest.take chunkSize) hr hx hk (by omega)
    rw [e1]
    refine loop_file_endless hx hk n (old := old ++ rest.take chunkSize) ?_ ?_ ?_ ?_
    · exact a1.2 ⟨0, "", by rw [filePeer_snoc, q1], .inl rfl⟩
    · simp only; rw [fileState_snoc]; exact q2
    · simp [ho]
    · simp only [List.length_take, List.length_drop]; omega

/-- With aktualizr-secondary at the other end, an image file that is shorter than announced keeps
the upload going for ever. -/
theorem C42_endless_file_secondary {t : Target} {x : Hash} {l : List Hash} (hx : t.hashes = x :: l) (hk : x.type ≠ .unknown)
    {image : Bytes} {st : St} (hr : Ready (fileState env hs clock s0 st.asked) t []) (h : image.length < t.length) (n : Nat) :
    uploadFirmware (filePeer env hs clock s0) n t.length image st = none := by
  unfold uploadFirmware
  rw [loop_file_endless hx hk n (old := []) (total := 0) (by decide) hr rfl (by omega)]

theorem loop_file_ends {t : Target} {x : Hash} {l : List Hash} (hx : t.hashes = x :: l) (hk : x.type ≠ .unknown) :
    ∀ (n : Nat) {rest : Bytes} {total : Nat} {last : InstResult} {st : St} {old : Bytes} {y : InstResult × Nat × St},
    last.success = true → Ready (fileState env hs clock s0 st.asked) t old → old.length = total →
    uploadLoop (filePeer env hs clock s0) t.length n rest total last st = some y → y.1.success = true
  | 0, rest, total, last, st, old, y, _, _, _, h => by simp [uploadLoop] at h
  | n + 1, rest, total, last, st, old, y, hl, hr, ho, h => by
    rw [uploadLoop] at h
    by_cases hc : (decide (total < t.length) && last.success) = true
    · rw [if_pos hc] at h
      obtain ⟨r1, e1, a1⟩ := uploadData_eq (filePeer env hs clock s0) (rest.take chunkSize) st
      simp only [Bool.and_eq_true, decide_eq_true_eq] at hc
      obtain ⟨q1, q2⟩ := fileStep_upload (env := env) (hs := hs) (clock := clock) (d := rest.take chunkSize) hr hx hk (by omega)
      rw [e1] at h
      refine loop_file_ends hx hk n (old := old ++ rest.take chunkSize) ?_ ?_ ?_ h
      · exact a1.2 ⟨0, "", by rw [filePeer_snoc, q1], .inl rfl⟩
      · simp only; rw [fileState_snoc]; exact q2
      · simp [ho]
    · rw [if_neg hc] at h
      simp only [Option.some.injEq] at h
      rw [← h]; exact hl

theorem fileState_run : ∀ (cs : List Bytes) {s s1 : Sec.State}, Sec.run env hs s (cs.map Sec.whole) = .ok s1 →
    fileState env hs clock s (cs.map .uploadData) = s1
  | [], s, s1, h => by simpa [Sec.run, fileState] using h
  | c :: cs, s, s1, h => by
    simp only [List.map_cons, Sec.run, bind, Except.bind] at h
    cases hst : Sec.step env hs s (Sec.whole c) with
    | error e => rw [hst] at h; simp at h
    | ok y =>
      rw [hst] at h
      simp only at h
      have hf : (fileStep env hs clock s (.uploadData c)).2 = y.2 := by
        simp only [Sec.whole] at hst
        obtain ⟨o, s'⟩ := y
        simp only [fileStep, hst]
        cases o <;> rfl
      have := fileState_run cs h
      simp only [fileState, List.map_cons, List.foldl_cons] at this ⊢
      rw [hf]
      exact this

/-- The whole way, with aktualizr-secondary at the other end, ready to receive a target: sending
the firmware and installing it succeed, and then the image of the Secondary is the file of the
Primary. -/
theorem C42_file_secondary {t : Target} {x : Hash} {l : List Hash} (hx : t.hashes = x :: l) (hk : x.type ≠ .unknown)
    {image cred : Bytes} {st : St} (hv : st.version = 2) (hb : t.isOstree = false)
    (hr : Ready (fileState env hs clock s0 st.asked) t []) (hlen : image.length = t.length) (hpos : 0 < t.length)
    (hd : x.hash = upper (hs.digest x.type image)) :
    ∃ n r st1 r' st2, sendFirmware (filePeer env hs clock s0) n ⟨cred, some image⟩ t st = some (.ok r, st1) ∧ r.success = true ∧
      install (filePeer env hs clock s0) t st1 = (.ok r', st2) ∧ r'.success = true ∧
      (fileState env hs clock s0 st2.asked).firmware = some image := by
  obtain ⟨⟨last, tot, st1⟩, hy⟩ := loop_ends (peer := filePeer env hs clock s0) (size := t.length) ((t.length + 1023) / 1024)
    (rest := image) (total := 0) (last := .ofCode .ok "") (s := st) (by omega) (by simp only [chunkSize]; omega)
  have hs1 : last.success = true := loop_file_ends hx hk _ (by decide) hr rfl hy
  obtain ⟨chunks0, d⟩ := loop_done _ hy
  have htot : tot = t.length := by
    have h1 := d.stopped hs1
    have := d.sum
    rw [d.joined, List.length_take] at this
    omega
  have hup : uploadFirmware (filePeer env hs clock s0) ((t.length + 1023) / 1024 + 1) t.length image st = some (.ofCode .ok "", st1) := by
    unfold uploadFirmware
    rw [hy]
    simp [hs1, htot]
  obtain ⟨chunks, c1, c2, c3, c4, -⟩ := C42_success hup (by decide)
  rw [List.take_of_length_le (by omega)] at c2
  obtain ⟨c, cs, rfl⟩ : ∃ c cs, chunks = c :: cs := by
    cases chunks with
    | nil =>
      exfalso
      have : image.length = 0 := by rw [← c2]; rfl
      omega
    | cons c cs => exact ⟨c, cs, rfl⟩
  have hn : (fileState env hs clock s0 st.asked).newtarget.getD [] = [] := by
    rcases hr.new with h | h
    · exact h.2
    · exact absurd rfl h.1
  obtain ⟨s1, s2, e1, e2, e3, -⟩ := Sec.C27_any_split env hs (fileState env hs clock s0 st.asked) t x l c cs 998 hr.up hr.pending hn hx hk
    (fun d hd => List.length_pos_iff.1 (c4 d hd).1) (by rw [c2]; exact hlen) (by rw [c2]; exact hd)
  have hstate : fileState env hs clock s0 st1.asked = s1 := by
    rw [c1, fileState_append]
    exact fileState_run _ e1
  have hinst : fileStep env hs clock s1 (.install t.filename) = (.install2 0 "", s2) := by
    simp only [fileStep, e2]
    rfl
  have hv1 : st1.version = 2 := by rw [d.version]; exact hv
  refine ⟨(t.length + 1023) / 1024 + 1, .ofCode .ok "", st1, remote 0 "",
    { st1 with asked := st1.asked ++ [.install t.filename] }, ?_, by decide, ?_, by decide, ?_⟩
  · unfold sendFirmware
    rw [if_pos hv, hb]
    simp only [Bool.false_eq_true, if_false]
    rw [hup]
    rfl
  · unfold install
    rw [M.run_bind (M.gets_eq)]
    simp only [id]
    rw [if_pos hv1]
    unfold install2
    rw [M.run_bind (show rpc (filePeer env hs clock s0) (.install t.filename) st1 = (.ok (.install2 0 ""), _) by
      unfold rpc; rw [filePeer_snoc, hstate, hinst])]
    rfl
  · simp only
    rw [fileState_snoc, hstate, hinst, e3, c2]

end Together

/-! ### C43 -/

/-- `toUint32` of a version that a Secondary may reasonably have. -/
theorem toUint32_small {v : Int} (h0 : 0 ≤ v) (h : v < 4294967296) : toUint32 v = v.toNat := by
  unfold toUint32
  rw [Int.emod_eq_of_lt h0 h]

theorem negotiate_eq (peer : Peer) (s : St) :
    getSecondaryVersion peer s = (.ok (), match peer (s.asked ++ [.version 2]) with
      | .version v => { version := min (toUint32 v) 2, asked := s.asked ++ [.version 2] }
      | _ => { version := if peer (s.asked ++ [.version 2, .info]) = .info then 1 else s.version,
               asked := s.asked ++ [.version 2, .info] }) := by
  unfold getSecondaryVersion
  rw [M.run_bind (show rpc peer (.version latestVersion) s = (.ok (peer (s.asked ++ [.version 2])), { s with asked := s.asked ++ [.version 2] }) from rfl)]
  have hbad : (do
      let up ← ping peer
      if up then M.modify (fun s => { s with version := 1 }) else pure () : P Unit) { s with asked := s.asked ++ [.version 2] } =
      (.ok (), { version := if peer (s.asked ++ [.version 2, .info]) = .info then 1 else s.version,
                 asked := s.asked ++ [.version 2, .info] }) := by
    have hp : ping peer { s with asked := s.asked ++ [.version 2] } =
        (.ok (peer (s.asked ++ [.version 2, .info]) == .info), { s with asked := s.asked ++ [.version 2, .info] }) := by
      unfold ping
      rw [M.run_bind (show rpc peer .info { s with asked := s.asked ++ [.version 2] } = (.ok (peer (s.asked ++ [.version 2] ++ [.info])), _) from rfl)]
      simp [M.pure_eq]
    rw [M.run_bind hp]
    by_cases hi : peer (s.asked ++ [.version 2, .info]) = .info
    · simp [hi, M.modify_eq]
    · simp [hi, M.pure_eq]
  cases h : peer (s.asked ++ [.version 2]) with
  | version v =>
    simp only [M.modify_eq]
    by_cases hv : toUint32 v ≤ latestVersion
    · rw [if_pos hv, Nat.min_eq_left (show toUint32 v ≤ 2 from hv)]
    · rw [if_neg hv, Nat.min_eq_right (by simp only [latestVersion] at hv; omega)]; rfl
  | _ => exact hbad

/-- A Secondary that answers with its version `v`: the version used is the highest that both
support (all versions up to one's own are supported). -/
theorem C43_partial {peer : Peer} {s s' : St} {v : Int} (ha : peer (s.asked ++ [.version 2]) = .version v)
    (h1 : 1 ≤ v) (h2 : v < 4294967296) (h : getSecondaryVersion peer s = (.ok (), s')) :
    Speaks s'.version ∧ s'.version ≤ v ∧ ∀ w : Nat, Speaks w → w ≤ v → w ≤ s'.version := by
  rw [negotiate_eq, ha] at h
  simp only [Prod.mk.injEq, true_and] at h
  subst h
  rw [toUint32_small (by omega) h2]
  unfold Speaks
  refine ⟨?_, ?_, ?_⟩
  · simp only; omega
  · simp only; omega
  · intro w hw hwv
    simp only
    omega

/-- A Secondary that answers nothing changes nothing. -/
theorem C43_unreachable {peer : Peer} {s : St} (ha : peer (s.asked ++ [.version 2]) = .nothing)
    (hb : peer (s.asked ++ [.version 2, .info]) = .nothing) : (getSecondaryVersion peer s).2.version = s.version := by
  rw [negotiate_eq, ha]
  simp [hb]

/-- A Secondary that does not understand the question but answers others speaks version 1. -/
theorem C43_old {peer : Peer} {s : St} (ha : ∀ v, peer (s.asked ++ [.version 2]) ≠ .version v)
    (hb : peer (s.asked ++ [.version 2, .info]) = .info) : (getSecondaryVersion peer s).2.version = 1 := by
  rw [negotiate_eq]
  cases h : peer (s.asked ++ [.version 2]) with
  | version v => exact absurd h (ha v)
  | _ => simp [hb]

/-- With aktualizr-secondary at the other end, running: version 2. -/
theorem C43_aktualizr_secondary {env : Env} {hs : Sec.Hashing} {clock : Nat → TimeStamp} {s0 : Sec.State} {s : St}
    (hu : (fileState env hs clock s0 s.asked).up = true) :
    (getSecondaryVersion (filePeer env hs clock s0) s).2.version = 2 := by
  rw [negotiate_eq, filePeer_snoc]
  simp only [fileStep, hu, if_true, versionHdlr]
  decide

/-- Requests that only exist in version 2 of the protocol, and those that only exist in version 1. -/
def _root_.Aktualizr.Spec.NewOnly : Req → Prop
  | .putMeta2 .. => True
  | .uploadData _ => True
  | .downloadOstreeRev _ => True
  | _ => False

def _root_.Aktualizr.Spec.OldOnly : Req → Prop
  | .putMeta _ => True
  | .sendFirmware _ => True
  | _ => False

/-- What an operation asks, as seen from the version at its end (which is the one it used). -/
structure Polite (s s' : St) : Prop where
  bounded : s.version ≤ 2 → s'.version ≤ 2
  asked : ∃ l, s'.asked = s.asked ++ l ∧
    (∀ r ∈ l, NewOnly r → s'.version = 2) ∧ (∀ r ∈ l, OldOnly r → s'.version = 1) ∧
    (∀ r ∈ l, ∀ name, r = .install name → Speaks s'.version)

theorem negotiate_polite (peer : Peer) (s : St) : ∃ s', getSecondaryVersion peer s = (.ok (), s') ∧ (s.version ≤ 2 → s'.version ≤ 2) ∧
    ∃ l, s'.asked = s.asked ++ l ∧ ∀ r ∈ l, r = .version 2 ∨ r = .info := by
  refine ⟨_, negotiate_eq peer s, ?_, ?_⟩
  · intro h
    cases peer (s.asked ++ [.version 2]) <;> simp only <;> first | omega | (split <;> omega)
  · cases peer (s.asked ++ [.version 2]) <;> first
      | exact ⟨[.version 2], rfl, by simp⟩
      | exact ⟨[.version 2, .info], rfl, by simp⟩

theorem rpc_snd {α : Type} (peer : Peer) (r : Req) (s : St) (f : Resp → P α) (hf : ∀ x st, (f x st).2 = st) :
    ((rpc peer r >>= f) s).2 = { s with asked := s.asked ++ [r] } := by
  rw [M.run_bind (show rpc peer r s = (.ok (peer (s.asked ++ [r])), _) from rfl)]
  exact hf _ _

theorem putMetadata1_snd (peer : Peer) (b : Bundle) (s : St) : (putMetadata1 peer b s).2 = { s with asked := s.asked ++ [.putMeta b] } := by
  unfold putMetadata1
  refine rpc_snd peer _ s _ fun x st => ?_
  split <;> rfl

theorem putMetadata2_snd (peer : Peer) (b : Bundle) (s : St) : ∃ d i, (putMetadata2 peer b s).2 = { s with asked := s.asked ++ [.putMeta2 d i] } := by
  unfold putMetadata2
  refine ⟨_, _, rpc_snd peer _ s _ fun x st => ?_⟩
  split <;> rfl

theorem sendFirmware1_snd (peer : Peer) (d : Bytes) (s : St) : (sendFirmware1 peer d s).2 = { s with asked := s.asked ++ [.sendFirmware d] } := by
  unfold sendFirmware1
  refine rpc_snd peer _ s _ fun x st => ?_
  split <;> rfl

theorem ostree_snd (peer : Peer) (d : Bytes) (s : St) : (downloadOstreeRev peer d s).2 = { s with asked := s.asked ++ [.downloadOstreeRev d] } := by
  unfold downloadOstreeRev
  refine rpc_snd peer _ s _ fun x st => ?_
  split <;> rfl

theorem install_snd (peer : Peer) (t : Target) (s : St) :
    (install peer t s).2 = if s.version = 2 ∨ s.version = 1 then { s with asked := s.asked ++ [.install t.filename] } else s := by
  unfold install
  rw [M.run_bind (M.gets_eq)]
  simp only [id]
  by_cases h2 : s.version = 2
  · rw [if_pos h2, if_pos (.inl h2)]
    unfold install2
    refine rpc_snd peer _ s _ fun x st => ?_
    split <;> rfl
  · rw [if_neg h2]
    by_cases h1 : s.version = 1
    · rw [if_pos h1, if_pos (.inr h1)]
      unfold install1
      refine rpc_snd peer _ s _ fun x st => ?_
      split <;> rfl
    · rw [if_neg h1, if_neg (by simp [h1, h2])]
      rfl

theorem manifest_snd (peer : Peer) (s1 s : St) (h : getSecondaryVersion peer s1 = (.ok (), s)) :
    (getManifest peer s1).2 = { s with asked := s.asked ++ [.manifest] } := by
  unfold getManifest
  rw [M.run_bind h]
  refine rpc_snd peer _ s _ fun x st => ?_
  split <;> rfl

/-- Every operation uses the messages of the version it ends with, and only asks to install when
that is one the Primary speaks. -/
theorem C43_messages {peer : Peer} {n : Nat} {s s' : St} {o : Op} (h : o.step peer n s = some s') : Polite s s' := by
  cases o with
  | putMetadata b =>
    simp only [Op.step, Option.some.injEq] at h
    subst h
    cases b with
    | none => exact ⟨fun h => h, [], by simp [Ip.putMetadata, M.pure_eq], by simp, by simp, by simp⟩
    | some b =>
      obtain ⟨s1, e1, b1, l, e2, hl⟩ := negotiate_polite peer s
      simp only [Ip.putMetadata]
      rw [M.run_bind e1, M.run_bind (M.gets_eq)]
      simp only [id]
      have hnew : ∀ r ∈ l, ¬ NewOnly r := fun r hr => by rcases hl r hr with rfl | rfl <;> simp [NewOnly]
      have hold : ∀ r ∈ l, ¬ OldOnly r := fun r hr => by rcases hl r hr with rfl | rfl <;> simp [OldOnly]
      have hins : ∀ r ∈ l, ∀ name, r ≠ .install name := fun r hr name => by rcases hl r hr with rfl | rfl <;> simp
      by_cases h2 : s1.version = 2
      · rw [if_pos h2]
        obtain ⟨d, i, e3⟩ := putMetadata2_snd peer b s1
        rw [e3]
        refine ⟨b1, l ++ [.putMeta2 d i], by simp [e2], fun _ _ _ => h2, ?_, ?_⟩
        · intro r hr ho
          rcases List.mem_append.1 hr with hr | hr
          · exact absurd ho (hold r hr)
          · simp only [List.mem_singleton] at hr; subst hr; exact absurd ho (by simp [OldOnly])
        · exact fun _ _ _ _ => .inr h2
      · rw [if_neg h2]
        by_cases h1 : s1.version = 1
        · rw [if_pos h1, putMetadata1_snd]
          refine ⟨b1, l ++ [.putMeta b], by simp [e2], ?_, fun _ _ _ => h1, fun _ _ _ _ => .inl h1⟩
          intro r hr ho
          rcases List.mem_append.1 hr with hr | hr
          · exact absurd ho (hnew r hr)
          · simp only [List.mem_singleton] at hr; subst hr; exact absurd ho (by simp [NewOnly])
        · rw [if_neg h1]
          exact ⟨b1, l, e2, fun r hr ho => absurd ho (hnew r hr), fun r hr ho => absurd ho (hold r hr),
            fun r hr name hn => absurd hn (hins r hr name)⟩
  | getManifest =>
    simp only [Op.step, Option.some.injEq] at h
    subst h
    obtain ⟨s1, e1, b1, l, e2, hl⟩ := negotiate_polite peer s
    rw [manifest_snd peer s s1 e1]
    refine ⟨b1, l ++ [.manifest], by simp [e2], ?_, ?_, ?_⟩
    all_goals
      intro r hr
      rcases List.mem_append.1 hr with hr | hr
      · rcases hl r hr with rfl | rfl <;> simp [NewOnly, OldOnly]
      · simp only [List.mem_singleton] at hr; subst hr; simp [NewOnly, OldOnly]
  | install t =>
    simp only [Op.step, Option.some.injEq] at h
    subst h
    rw [install_snd]
    split
    · rename_i hv
      refine ⟨fun h => h, [.install t.filename], rfl, by simp [NewOnly], by simp [OldOnly], fun _ _ _ _ => hv.symm⟩
    · exact ⟨fun h => h, [], by simp, by simp, by simp, by simp⟩
  | sendFirmware p t =>
    simp only [Op.step, Ip.sendFirmware] at h
    by_cases h2 : s.version = 2
    · rw [if_pos h2] at h
      by_cases ho : t.isOstree = true
      · rw [if_pos ho] at h
        simp only [Option.map_some, Option.some.injEq] at h
        rw [ostree_snd] at h
        subst h
        exact ⟨fun h => h, [.downloadOstreeRev p.cred], rfl, fun _ _ _ => h2, by simp [OldOnly], by simp⟩
      · rw [if_neg ho] at h
        cases hf : p.file with
        | none =>
          simp only [hf, Option.map_some, Option.some.injEq] at h
          subst h
          exact ⟨fun h => h, [], by simp, by simp, by simp, by simp⟩
        | some f =>
          simp only [hf] at h
          cases hu : uploadFirmware peer n t.length f s with
          | none => rw [hu] at h; simp at h
          | some y =>
            obtain ⟨r, s1⟩ := y
            rw [hu] at h
            simp only [Option.map_some, Option.some.injEq] at h
            subst h
            unfold uploadFirmware at hu
            cases hl : uploadLoop peer t.length n f 0 (.ofCode .ok "") s with
            | none => rw [hl] at hu; simp at hu
            | some z =>
              obtain ⟨last, tot, s2⟩ := z
              rw [hl] at hu
              simp only [Option.some.injEq, Prod.mk.injEq] at hu
              obtain ⟨-, rfl⟩ := hu
              obtain ⟨chunks, d⟩ := loop_done n hl
              refine ⟨by rw [d.version]; exact fun h => h, chunks.map .uploadData, d.asked,
                fun _ _ _ => by rw [d.version]; exact h2, ?_, ?_⟩
              · intro r hr ho
                obtain ⟨c, -, rfl⟩ := List.mem_map.1 hr
                simp [OldOnly] at ho
              · intro r hr name hn
                obtain ⟨c, -, rfl⟩ := List.mem_map.1 hr
                cases hn
    · rw [if_neg h2] at h
      by_cases h1 : s.version = 1
      · rw [if_pos h1] at h
        by_cases ho : t.isOstree = true
        · rw [if_pos ho] at h
          simp only [Option.map_some, Option.some.injEq] at h
          rw [sendFirmware1_snd] at h
          subst h
          exact ⟨fun h => h, [.sendFirmware p.cred], rfl, by simp [NewOnly], fun _ _ _ => h1, by simp⟩
        · rw [if_neg ho] at h
          cases hf : p.file with
          | none =>
            simp only [hf, Option.map_some, Option.some.injEq] at h
            subst h
            exact ⟨fun h => h, [], by simp, by simp, by simp, by simp⟩
          | some f =>
            simp only [hf, Option.map_some, Option.some.injEq] at h
            rw [sendFirmware1_snd] at h
            subst h
            exact ⟨fun h => h, [.sendFirmware f], rfl, by simp [NewOnly], fun _ _ _ => h1, by simp⟩
      · rw [if_neg h1] at h
        simp only [Option.map_some, Option.some.injEq] at h
        subst h
        exact ⟨fun h => h, [], by simp, by simp, by simp, by simp⟩

/-- The version never exceeds the highest the Primary supports. -/
theorem C43_bounded {peer : Peer} {n : Nat} : ∀ (os : List Op) {s s' : St}, s.version ≤ 2 → run peer n s os = some s' → s'.version ≤ 2
  | [], s, s', hs, h => by simp only [run, Option.some.injEq] at h; subst h; exact hs
  | o :: os, s, s', hs, h => by
    simp only [run] at h
    cases ho : o.step peer n s with
    | none => rw [ho] at h; simp at h
    | some s1 =>
      rw [ho] at h
      exact C43_bounded os ((C43_messages ho).bounded hs) h

/-- A Secondary that claims version 0 (or a multiple of 2³²) is believed; afterwards the Primary
refuses to send firmware or to install. -/
theorem C43_zero {peer : Peer} {s : St} {k : Int} (ha : peer (s.asked ++ [.version 2]) = .version (4294967296 * k)) :
    (getSecondaryVersion peer s).2.version = 0 := by
  rw [negotiate_eq, ha]
  simp [toUint32]

theorem C43_zero_refused {peer : Peer} {n : Nat} {s : St} (hv : s.version = 0) (p : Provider) (t : Target) :
    sendFirmware peer n p t s = some (.ok unexpected, s) ∧ install peer t s = (.ok unexpected, s) := by
  constructor
  · simp [sendFirmware, hv]
  · unfold install
    rw [M.run_bind (M.gets_eq)]
    simp [hv, M.pure_eq]

/-! ### Cases -/

/-- Not vacuous: 2049 bytes go out as three chunks; a refusal at the second ends the upload. -/
example :
    let all : Peer := fun _ => .uploadData 0 ""
    let second : Peer := fun l => if l.length = 2 then .uploadData 4 "no" else .uploadData 0 ""
    let image : Bytes := List.replicate 2049 7
    ((uploadFirmware all 9 2049 image {}).map (fun x => (x.1.success, x.2.asked.map (fun r => match r with | .uploadData d => d.length | _ => 0)))) =
      some (true, [1024, 1024, 1]) ∧
    ((uploadFirmware second 9 2049 image {}).map (fun x => (x.1.success, x.2.asked.length))) = some (false, 2) ∧
    ((uploadFirmware all 9 2000 image {}).map (fun x => (x.1.success, x.2.asked.length))) = some (false, 2) ∧
    (uploadFirmware all 50 2050 image {}).isNone := by
  decide +kernel

/-- Not vacuous: versions of several Secondaries. -/
example :
    let says : Int → Peer := fun v _ => .version v
    let old : Peer := fun l => if l.getLast? = some .info then .info else .nothing
    ([0, 1, 2, 3, -1, 4294967297].map (fun v => (getSecondaryVersion (says v) {}).2.version)) = [0, 1, 2, 2, 2, 1] ∧
    (getSecondaryVersion old {}).2.version = 1 ∧ (getSecondaryVersion (fun _ => .nothing) { version := 2 }).2.version = 2 := by
  decide +kernel

end Aktualizr.Ip
