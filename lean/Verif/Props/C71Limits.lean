import Verif.Props.C71
import Verif.Props.C72

/-!
# The publishing tools: commits as text, examples, and what is not guaranteed
-/

namespace Aktualizr.Tools

open M
open _root_.Aktualizr.Tools.Spec

/-! ### Commits as text -/

/-- The digit `c` has the value `n`. -/
def isDigitOf (c : Char) (n : Nat) : Bool := hexDigit c == some n && digitHex n == c && !isSpace c

theorem digit_value {c : Char} (h : ('0' ≤ c ∧ c ≤ '9') ∨ ('a' ≤ c ∧ c ≤ 'f')) : ∃ n, n < 16 ∧ hexDigit c = some n ∧ digitHex n = c ∧ isSpace c = false := by
  have hlt : c.toNat < 128 := by
    rcases h with ⟨_, h⟩ | ⟨_, h⟩
    · have : c.toNat ≤ '9'.toNat := h
      have e : '9'.toNat = 57 := by decide
      omega
    · have : c.toNat ≤ 'f'.toNat := h
      have e : 'f'.toNat = 102 := by decide
      omega
  have all : ∀ k, k < 128 → (('0' ≤ Char.ofNat k ∧ Char.ofNat k ≤ '9') ∨ ('a' ≤ Char.ofNat k ∧ Char.ofNat k ≤ 'f')) →
      (List.range 16).any (isDigitOf (Char.ofNat k)) = true := by decide +kernel
  have := all c.toNat hlt (by rw [Char.ofNat_toNat]; exact h)
  rw [Char.ofNat_toNat, List.any_eq_true] at this
  obtain ⟨n, hn, hd⟩ := this
  unfold isDigitOf at hd
  simp only [Bool.and_eq_true, beq_iff_eq, Bool.not_eq_true'] at hd
  exact ⟨n, List.mem_range.1 hn, hd.1.1, hd.1.2, hd.2⟩

theorem hexPairs_lower : ∀ (k : Nat) (s : Txt), s.length = 2 * k → (∀ c ∈ s, ('0' ≤ c ∧ c ≤ '9') ∨ ('a' ≤ c ∧ c ≤ 'f')) →
    ∃ h, hexPairs s = some h ∧ showHash h = s ∧ h.length = k ∧ ∀ b ∈ h, b < 256
  | 0, s, hl, _ => by
    cases s with
    | nil => exact ⟨[], rfl, rfl, rfl, by simp⟩
    | cons x s => simp at hl
  | k + 1, s, hl, hs => by
    match s, hl, hs with
    | x :: y :: s, hl, hs =>
      obtain ⟨m, hm, x1, x2, _⟩ := digit_value (hs x (by simp))
      obtain ⟨n, hn, y1, y2, _⟩ := digit_value (hs y (by simp))
      obtain ⟨h, h1, h2, h3, h4⟩ := hexPairs_lower k s (by simp at hl; omega) (fun c hc => hs c (by simp [hc]))
      refine ⟨(16 * m + n) :: h, ?_, ?_, by simp [h3], ?_⟩
      · unfold hexPairs hexPair
        rw [x1, y1, h1]
      · unfold showHash at h2 ⊢
        rw [List.flatMap_cons, h2, show (16 * m + n) / 16 = m by omega, show (16 * m + n) % 16 = n by omega, x2, y2]
        rfl
      · intro b hb
        rcases List.mem_cons.1 hb with rfl | hb
        · omega
        · exact h4 b hb

theorem hexPairs_bytes : ∀ {k : Nat} {s : Txt} {h : List Nat}, s.length = 2 * k → hexPairs s = some h → h.length = k
  | 0, s, h, hl, hp => by
    cases s with
    | nil => cases hp; rfl
    | cons x s => simp at hl
  | k + 1, s, h, hl, hp => by
    match s, hl, hp with
    | x :: y :: s, hl, hp =>
      unfold hexPairs at hp
      split at hp
      · rename_i b bs h1 h2
        cases hp
        rw [List.length_cons, hexPairs_bytes (k := k) (by simp at hl; omega) h2]
      · cases hp

theorem dropWhile_all {p : Char → Bool} : ∀ {s t : Txt}, (∀ c ∈ s, p c = true) → (s ++ t).dropWhile p = t.dropWhile p
  | [], _, _ => rfl
  | x :: s, t, h => by
    rw [List.cons_append, List.dropWhile_cons, if_pos (h x (by simp))]
    exact dropWhile_all (fun c hc => h c (by simp [hc]))

/-- **C71** The name of a commit, with or without white space after it, is read as 32 bytes and printed as it
was, so that the commit asked for, uploaded and listed in the Targets is the same. -/
theorem C71_commit_names {s blanks : Txt} (hs : IsCommit s) (hb : ∀ c ∈ blanks, isSpace c = true) :
    ∃ h, parseHash (s ++ blanks) = some h ∧ showHash h = s ∧ h.length = 32 ∧ ∀ b ∈ h, b < 256 := by
  obtain ⟨h, h1, h2, h3, h4⟩ := hexPairs_lower 32 s (by rw [hs.1]) hs.2
  have hns : ∀ c ∈ s, isSpace c = false := fun c hc => (digit_value (hs.2 c hc)).choose_spec.2.2.2
  refine ⟨h, ?_, h2, h3, h4⟩
  unfold parseHash
  have : ((s ++ blanks).reverse.dropWhile isSpace).reverse = s := by
    rw [List.reverse_append, dropWhile_all (fun c hc => hb c (List.mem_reverse.1 hc)),
      dropWhile_none (fun c hc => hns c (List.mem_reverse.1 hc)), List.reverse_reverse]
  dsimp only
  rw [this, if_pos hs.1]
  exact h1

/-- **C71** Two commits with different names are different. -/
theorem C71_commits_differ {s t : Txt} (hs : IsCommit s) (ht : IsCommit t) (h : parseHash s = parseHash t) : s = t := by
  obtain ⟨x, x1, x2, _⟩ := C71_commit_names hs (blanks := []) (by simp)
  obtain ⟨y, y1, y2, _⟩ := C71_commit_names ht (blanks := []) (by simp)
  rw [List.append_nil] at x1 y1
  rw [x1, y1] at h
  injection h with h
  rw [← x2, ← y2, h]

/-- **C71** Nothing of another length is a commit. -/
theorem C71_commit_length {s : Txt} {h : List Nat} (hp : parseHash s = some h) : h.length = 32 := by
  unfold parseHash at hp
  dsimp only at hp
  split at hp
  · rename_i hl
    exact hexPairs_bytes (k := 32) hl hp
  · cases hp

/-- Names of commits. -/
def commitA : Txt := List.replicate 64 'a'

example : IsCommit commitA := ⟨by decide, by decide +kernel⟩

/-- **C71** Reading is not strict: other texts are read as well, as a commit they do not name. -/
theorem C71_commit_parse_not_strict :
    parseHash (List.replicate 62 'a' ++ " 1".toList) = parseHash (List.replicate 62 'a' ++ "01".toList) ∧
    parseHash (List.replicate 62 'a' ++ "-1".toList) = parseHash (List.replicate 62 'a' ++ "ff".toList) ∧
    (parseHash (List.replicate 62 'a' ++ "01".toList)).isSome = true := by decide +kernel

/-! ### A set-up -/

/-- A property tree with a password, one with OAuth2, and a token. -/
def exTree (s : String) : Option Ptree :=
  if s = "b" then some (.node [] [("ostree", .node [] [("server", .node "http://t".toList [])]),
    ("basic_auth", .node [] [("user", .node "u".toList []), ("password", .node "p".toList [])])])
  else if s = "o" then some (.node [] [("ostree", .node [] [("server", .node "http://t/".toList [])]),
    ("oauth2", .node [] [("server", .node "http://a".toList []), ("client_id", .node "i".toList []), ("client_secret", .node "s".toList [])])])
  else if s = "tok" then some (.node [] [("access_token", .node "T".toList [])])
  else if s = "{}" then some (.node [] [])
  else none

/-- Targets with `commitA`. -/
def exTargetsJson : Json :=
  .obj [("signed", .obj [("expires", .str "2030-01-01T00:00:00Z"),
    ("targets", .obj [("x", .obj [("hashes", .obj [("sha256", .str "b")])]), ("y", .obj [("hashes", .obj [("sha256", .str (String.ofList commitA))])])])])]

/-- Servers that have everything. -/
def exAround : Around where
  web := fun _ r => match r.verb with
    | .get => ⟨true, 200, "targets"⟩
    | .post => ⟨true, 200, "tok"⟩
    | _ => ⟨true, 200, ""⟩
  readJson := exTree
  parseJson := fun s => if s = "targets" then exTargetsJson else .null
  now := ⟨"2020-01-01T00:00:00Z"⟩
  shell := fun _ _ => true

/-- Credentials with what is needed for signing. -/
def exFile (tree : String) : File :=
  { archive := some [("root.json", some ""), ("treehub.json", some tree), ("targets.pub", some ""), ("targets.sec", some ""),
      ("tufrepo.url", some " http://r/\n")] }

/-- The repository of `C39`, with a commit. -/
def exSource : Source :=
  { repo := Treehub.exRepo
    path := fun o => "objects/".toList ++ [Char.ofNat (48 + o)]
    commit := fun h => if some h = parseHash commitA then some 0 else none }

/-- What was answered and done. -/
def ended (r : Except Err Bool × St) : Option Bool × List (Verb × Txt × Auth) × Nat :=
  (match r.1 with | .ok b => some b | .error _ => none, r.2.sent.map (fun x => (x.verb, x.url, x.auth)), r.2.ran.length)

theorem exSource_paths : ObjectPaths exSource := fun o => ⟨[Char.ofNat (48 + o)], rfl⟩

/-- Some of the credentials. -/
def shown : Except Bad Creds → Option (Method × Txt × Txt × Txt)
  | .ok c => some (c.method, c.user ++ c.clientId, c.ostreeServer, c.repoUrl)
  | .error _ => none

/-- The credentials read from the examples meet the hypotheses. -/
example : shown (readCredentials exTree (exFile "b")) = some (.basic, "u".toList, "http://t".toList, "http://r/".toList) ∧
    shown (readCredentials exTree (exFile "o")) = some (.oauth2, "i".toList, "http://t/".toList, "http://r/".toList) ∧
    canSignOffline (exFile "b") = true := by decide +kernel

/-- `garage-push` of a branch, with OAuth2: first the token, then the objects, children first, then the
branch. -/
example : ended (garagePush exAround { ref := "main".toList, refs := [("main".toList, commitA ++ ['\n'])] } (exFile "o") exSource Treehub.exSteps {}) =
    (some true, [(.post, "http://a/token".toList, .basic "i".toList "s".toList)] ++
      [(.head, '0'), (.head, '1'), (.head, '2'), (.head, '2'), (.head, '3'), (.put, '3'), (.put, '3'), (.put, '1'), (.put, '0')].map
        (fun p => (p.1, "http://t/objects/".toList ++ [p.2], .bearer "T".toList)) ++
      [(.post, "http://t/refs/heads/main".toList, .bearer "T".toList)], 0) := by decide +kernel

/-- A dry run. -/
example : ended (garagePush exAround { ref := commitA, dryRun := true } (exFile "b") exSource [.launch, .done 0 true 200] {}) =
    (some true, [(.head, "http://t/objects/0".toList, .basic "u".toList "p".toList)], 0) := by decide +kernel

/-- `garage-check`. -/
example : ended (garageCheck exAround commitA false 30 (exFile "b") exSource [] {}) =
    (some true, [(.head, "http://t/objects/aa/".toList ++ List.replicate 62 'a' ++ ".commit".toList, .basic "u".toList "p".toList),
      (.get, "http://r/api/v1/user_repo/targets.json".toList, .basic "u".toList "p".toList)], 0) := by decide +kernel

/-- `garage-deploy`. -/
example : (fun r => (r.1, r.2.1.length, r.2.2)) (ended (garageDeploy exAround ⟨commitA, "n".toList, "h".toList, false, 30, "c.zip".toList⟩ (exFile "b") (exFile "b") exSource
    Treehub.exSteps {})) = (some true, 11, 5) := by decide +kernel

/-! ### What is not guaranteed -/

/-- **C71** does not hold for `--dry-run` with `--walk-tree`: the mode is then the one of the walk
(garage_push.cc:93-103) and only the other one keeps the branch from being pushed (garage_push.cc:145). -/
theorem C71_dry_run_pushes_ref :
    (ended (garagePush exAround { ref := "main".toList, refs := [("main".toList, commitA)], dryRun := true, walkTree := true } (exFile "b") exSource
      [.launch, .done 0 true 200, .launch, .launch, .done 1 true 200, .done 2 true 200, .launch, .done 3 true 200] {})).1 = some true ∧
    (.post, "http://t/refs/heads/main".toList, .basic "u".toList "p".toList) ∈
      (ended (garagePush exAround { ref := "main".toList, refs := [("main".toList, commitA)], dryRun := true, walkTree := true } (exFile "b") exSource
      [.launch, .done 0 true 200, .launch, .launch, .done 1 true 200, .done 2 true 200, .launch, .done 3 true 200] {})).2.1 := by decide +kernel

/-- **C71** does not hold for `garage-check --walk-tree`: objects of the commit are missing on the server, which the
exit status does not show (check.cc:85-91). -/
theorem C71_walk_ignores_missing :
    (ended (garageCheck exAround commitA true 30 (exFile "b") exSource
      [.launch, .done 0 true 200, .launch, .launch, .done 1 true 404, .done 2 true 404, .launch, .launch, .done 3 true 404, .launch, .launch, .launch, .launch] {})).1 = some true := by
  decide +kernel

/-- ... and a commit that is not on the server at all is not looked for in the Targets. -/
theorem C71_walk_missing_commit :
    (ended (garageCheck { exAround with web := fun _ _ => ⟨true, 404, ""⟩ } commitA true 30 (exFile "b") exSource
      [.launch, .done 0 true 404, .launch, .launch, .done 1 true 404, .done 2 true 404, .launch, .launch, .done 3 true 404, .launch, .launch, .launch, .launch] {})).1 = some true := by
  decide +kernel

/-- **C71** does not hold for the manifest: that it was refused is only logged. -/
theorem C71_manifest_refused :
    (ended (garagePush { exAround with web := fun _ r => if r.verb = .put then ⟨true, 500, ""⟩ else ⟨true, 200, ""⟩ } { ref := commitA, manifest := some "{}".toList }
      (exFile "b") exSource Treehub.exSteps {})).1 = some true := by decide +kernel

/-- A file of a branch that is not a commit ends `garage-push` with an exception nobody catches. -/
theorem C71_bad_ref_crashes :
    (garagePush exAround { ref := "main".toList, refs := [("main".toList, "x".toList)] } (exFile "b") exSource [] {}).1 = .error .crash := by rfl

/-- The error of a run. -/
def isUb (r : Except Err Bool × St) : Bool := match r.1 with | .error (.ub _) => true | _ => false

/-- **C71** Credentials without the address of the repository of Targets are accepted; `garage-check` then reads before
the beginning of an empty text (treehub_server.cc:57-58). -/
theorem C71_no_repo_url_undefined :
    isUb (garageCheck exAround commitA false 30 { archive := none, text := "b" } exSource [] {}) = true := by decide +kernel

/-- **C71** The names given to `garage-deploy` are not quoted for the shell: a name with a semicolon makes it run
another command. -/
theorem C71_deploy_shell_injection : ∃ pre post, (signCommands [] "x; reboot #".toList (showHash []) [])[2]? = some (pre ++ "; reboot #".toList ++ post) ∧
    pre = "garage-sign targets add --repo aktualizr --format OSTREE --length 0".toList ++ " --name ".toList ++ "x".toList := by
  refine ⟨_, " --version ".toList ++ " --sha256 ".toList ++ " --hardwareids ".toList, ?_, rfl⟩
  show some _ = some _
  congr 1

/-- **C72** A reply without a token is taken for one: the requests then show an empty token. -/
theorem C72_empty_token :
    (ended (garageCheck { exAround with web := fun _ r => match r.verb with | .get => ⟨true, 200, "targets"⟩ | .post => ⟨false, 200, "{}"⟩ | _ => ⟨true, 200, ""⟩ }
      commitA false 30 (exFile "o") exSource [] {})) =
    (some true, [(.post, "http://a/token".toList, .basic "i".toList "s".toList),
      (.head, "http://t/objects/aa/".toList ++ List.replicate 62 'a' ++ ".commit".toList, .bearer []),
      (.get, "http://r/api/v1/user_repo/targets.json".toList, .bearer [])], 0) := by decide +kernel

/-- **C72** does not hold for an address with white space after it: a second slash is put after the white space, which
then stays in the middle of the address. -/
theorem C72_blank_in_address : address (withSlash "http://t ".toList) "objects/".toList = .ok "http://t /objects/".toList := by rfl

end Aktualizr.Tools
