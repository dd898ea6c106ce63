import Verif.Connect.Props

/-
What `fetch_discovery` makes of an answer, and so which answers `discover` asks again after (C121).
/repo/src/client/auth.rs L136-214.
-/

namespace Verif.Connect

open Verif

variable {M : Type}

/-- `StatusCode::canonical_reason` of the http crate, which the error text quotes. /repo/src/client/auth.rs L184-189. -/
def reason : Nat → List Char
  | 100 => "Continue".toList
  | 101 => "Switching Protocols".toList
  | 102 => "Processing".toList
  | 103 => "Early Hints".toList
  | 200 => "OK".toList
  | 201 => "Created".toList
  | 202 => "Accepted".toList
  | 203 => "Non Authoritative Information".toList
  | 204 => "No Content".toList
  | 205 => "Reset Content".toList
  | 206 => "Partial Content".toList
  | 207 => "Multi-Status".toList
  | 208 => "Already Reported".toList
  | 226 => "IM Used".toList
  | 300 => "Multiple Choices".toList
  | 301 => "Moved Permanently".toList
  | 302 => "Found".toList
  | 303 => "See Other".toList
  | 304 => "Not Modified".toList
  | 305 => "Use Proxy".toList
  | 307 => "Temporary Redirect".toList
  | 308 => "Permanent Redirect".toList
  | 400 => "Bad Request".toList
  | 401 => "Unauthorized".toList
  | 402 => "Payment Required".toList
  | 403 => "Forbidden".toList
  | 404 => "Not Found".toList
  | 405 => "Method Not Allowed".toList
  | 406 => "Not Acceptable".toList
  | 407 => "Proxy Authentication Required".toList
  | 408 => "Request Timeout".toList
  | 409 => "Conflict".toList
  | 410 => "Gone".toList
  | 411 => "Length Required".toList
  | 412 => "Precondition Failed".toList
  | 413 => "Payload Too Large".toList
  | 414 => "URI Too Long".toList
  | 415 => "Unsupported Media Type".toList
  | 416 => "Range Not Satisfiable".toList
  | 417 => "Expectation Failed".toList
  | 418 => "I'm a teapot".toList
  | 421 => "Misdirected Request".toList
  | 422 => "Unprocessable Entity".toList
  | 423 => "Locked".toList
  | 424 => "Failed Dependency".toList
  | 425 => "Too Early".toList
  | 426 => "Upgrade Required".toList
  | 428 => "Precondition Required".toList
  | 429 => "Too Many Requests".toList
  | 431 => "Request Header Fields Too Large".toList
  | 451 => "Unavailable For Legal Reasons".toList
  | 500 => "Internal Server Error".toList
  | 501 => "Not Implemented".toList
  | 502 => "Bad Gateway".toList
  | 503 => "Service Unavailable".toList
  | 504 => "Gateway Timeout".toList
  | 505 => "HTTP Version Not Supported".toList
  | 506 => "Variant Also Negotiates".toList
  | 507 => "Insufficient Storage".toList
  | 508 => "Loop Detected".toList
  | 510 => "Not Extended".toList
  | 511 => "Network Authentication Required".toList
  | _ => "<unknown status code>".toList

/-- What comes of a request: the text of reqwest's error, or a status and the document (or the text of the error of
reading it). (The environment of /repo/src/client/auth.rs L170-197.) -/
inductive Got (M : Type)
  | failed (why : List Char)
  | answered (status : Nat) (document : Except (List Char) M)

/-- "Protocol error: -32603 - Failed to fetch discovery document:", of /repo/src/client/auth.rs L177-182 and
/repo/src/error/mod.rs L18. -/
def failedHead : List Char := "Protocol error: -32603 - Failed to fetch discovery document:".toList

/-- "Protocol error: -32603 - Failed to fetch discovery document:" with the text of the error, of
/repo/src/client/auth.rs L177-182 and /repo/src/error/mod.rs L18. -/
def failedText (why : List Char) : List Char :=
  failedHead ++ ' ' :: why

/-- "Protocol error: -32603 - Discovery endpoint returned status:", of /repo/src/client/auth.rs L184-189 and
/repo/src/error/mod.rs L18. -/
def refusedHead : List Char := "Protocol error: -32603 - Discovery endpoint returned status:".toList

/-- "Protocol error: -32603 - Discovery endpoint returned status:" with the number and the reason, of
/repo/src/client/auth.rs L184-189 and /repo/src/error/mod.rs L18. -/
def refusedText (status : Nat) : List Char :=
  refusedHead ++
    ' ' :: (Nat.toDigits 10 status ++ ' ' :: reason status)

/-- "Protocol error: -32700 - Failed to parse discovery document:", of /repo/src/client/auth.rs L191-196 and
/repo/src/error/mod.rs L18. -/
def unreadHead : List Char := "Protocol error: -32700 - Failed to parse discovery document:".toList

/-- "Protocol error: -32700 - Failed to parse discovery document:" with the text of the error, of
/repo/src/client/auth.rs L191-196 and /repo/src/error/mod.rs L18. -/
def unreadText (why : List Char) : List Char :=
  unreadHead ++ ' ' :: why

/-- `fetch_discovery`, /repo/src/client/auth.rs L170-197. -/
def fetchDiscovery : Got M → Except FetchError M
  | .failed why => .error (.text (failedText why))
  | .answered status document =>
    if ¬(200 ≤ status ∧ status < 300) then .error (.text (refusedText status))
    else match document with
      | .error why => .error (.text (unreadText why))
      | .ok m => .ok m

/-- `discover` against what comes of its requests, /repo/src/client/auth.rs L136-197. -/
def discoverOver (got : Nat → Got M) (maxRetries : Nat) : Found M × Nat :=
  discover (fun k => fetchDiscovery (got k)) maxRetries

/-! ### Words in texts -/

/-- A word does not reach over a character it has not. -/
theorem hasText_across (needle a b : List Char) (c : Char) (hn : c ∉ needle) (h0 : needle ≠ []) :
    hasText needle (a ++ c :: b) = (hasText needle a || hasText needle b) := by
  rw [Bool.eq_iff_iff, Bool.or_eq_true]
  simp only [hasText_iff]
  constructor
  · rintro ⟨x, y, h⟩
    rw [List.append_assoc] at h
    rcases List.append_eq_append_iff.mp h with ⟨z, rfl, hz⟩ | ⟨z, rfl, hz⟩
    · -- the word begins behind `a`
      cases z with
      | nil =>
        cases needle with
        | nil => exact absurd rfl h0
        | cons d n =>
          simp only [List.nil_append, List.cons_append, List.cons.injEq] at hz
          exact absurd (by rw [hz.1]; simp) hn
      | cons d z =>
        simp only [List.cons_append, List.cons.injEq] at hz
        exact Or.inr ⟨z, y, by rw [hz.2, List.append_assoc]⟩
    · rcases List.append_eq_append_iff.mp hz with ⟨w, rfl, _⟩ | ⟨w, hw, he⟩
      · exact Or.inl ⟨x, w, by simp⟩
      · cases w with
        | nil => exact Or.inl ⟨x, [], by rw [hw]; simp⟩
        | cons d w =>
          simp only [List.cons_append, List.cons.injEq] at he
          exact absurd (by rw [hw, he.1]; simp) hn
  · rintro (⟨x, y, rfl⟩ | ⟨x, y, rfl⟩)
    · exact ⟨x, y ++ c :: b, by simp⟩
    · exact ⟨a ++ c :: x, y, by simp⟩

/-- A text without the characters of a word does not have the word. -/
theorem hasText_without (needle s : List Char) (d : Char) (hd : d ∈ needle) (hs : d ∉ s) :
    hasText needle s = false := by
  cases h : hasText needle s with
  | false => rfl
  | true =>
    obtain ⟨a, c, rfl⟩ := (hasText_iff needle s).mp h
    exact absurd (by simp [hd]) hs

theorem retry_across (a b : List Char) : shouldRetry (.text (a ++ ' ' :: b)) =
    (shouldRetry (.text a) || shouldRetry (.text b)) := by
  simp only [shouldRetry]
  rw [hasText_across _ a b ' ' (by decide) (by decide), hasText_across _ a b ' ' (by decide) (by decide),
    hasText_across _ a b ' ' (by decide) (by decide), hasText_across _ a b ' ' (by decide) (by decide)]
  generalize hasText _ a = a1
  generalize hasText _ a = a2
  generalize hasText _ a = a3
  generalize hasText _ a = a4
  generalize hasText _ b = b1
  generalize hasText _ b = b2
  generalize hasText _ b = b3
  generalize hasText _ b = b4
  cases a1 <;> cases a2 <;> cases a3 <;> cases a4 <;> cases b1 <;> cases b2 <;> cases b3 <;> cases b4 <;> rfl

theorem retry_failedHead : shouldRetry (.text failedHead) = false := by decide +kernel
theorem retry_refusedHead : shouldRetry (.text refusedHead) = false := by decide +kernel
theorem retry_unreadHead : shouldRetry (.text unreadHead) = false := by decide +kernel

theorem retry_digits (n : Nat) : shouldRetry (.text (Nat.toDigits 10 n)) = false := by
  have hd : ∀ d : Char, d.isDigit = false → d ∉ Nat.toDigits 10 n := by
    intro d h hm
    have := Nat.isDigit_of_mem_toDigits (by decide) (by decide) hm
    rw [h] at this
    cases this
  simp only [shouldRetry, Bool.or_eq_false_iff]
  exact ⟨⟨⟨hasText_without _ _ 'O' (by decide) (hd _ (by decide)),
    hasText_without _ _ 'n' (by decide) (hd _ (by decide))⟩,
    hasText_without _ _ 't' (by decide) (hd _ (by decide))⟩, hasText_without _ _ 'n' (by decide) (hd _ (by decide))⟩

theorem retry_reason (n : Nat) : shouldRetry (.text (reason n)) = false := by
  unfold reason
  split <;> decide +kernel

/-! ### C121 -/

/-- **C121, refuted** for the failures of the server: no status is asked again after, neither 503 nor 504 nor 408. The
first such answer ends the discovery, whatever would come of a second request. -/
theorem C121_status_final_partial (got : Nat → Got M) (maxRetries status : Nat) (document : Except (List Char) M)
    (h0 : 0 < maxRetries) (hg : got 0 = .answered status document) (hs : ¬(200 ≤ status ∧ status < 300)) :
    discoverOver got maxRetries = (.error (.text (refusedText status)), 1) := by
  have hr : shouldRetry (.text (refusedText status)) = false := by
    have := retry_across refusedHead (Nat.toDigits 10 status ++ ' ' :: reason status)
    rw [retry_across (Nat.toDigits 10 status) (reason status), retry_refusedHead, retry_digits, retry_reason] at this
    exact this
  have hf : fetchDiscovery (got 0) = .error (.text (refusedText status)) := by
    rw [hg]
    exact if_pos hs
  have := C72_discover_first (fun k => fetchDiscovery (got k)) maxRetries 0 h0
    (fun k hk => absurd hk (Nat.not_lt_zero k)) (fun e he => by
      simp only [hf, Except.error.injEq] at he
      rw [← he]; exact hr)
  simp only [hf] at this
  exact this

/-- **C121**. A request that failed, or a document that could not be read, is asked for again exactly if the text of
reqwest's error (which may quote the address) has one of four words, and requests are left. -/
theorem C121_asked_again_iff (got : Nat → Got M) (maxRetries : Nat) (why : List Char) (h0 : 0 < maxRetries)
    (hg : got 0 = .failed why ∨ ∃ s, 200 ≤ s ∧ s < 300 ∧ got 0 = .answered s (.error why)) :
    1 < (discoverOver got maxRetries).2 ↔ 1 < maxRetries ∧
      ∃ w ∈ ["CORS".toList, "network".toList, "timeout".toList, "connection".toList], ∃ a c, why = a ++ w ++ c := by
  rw [← C121_retry_iff]
  obtain ⟨t, hf, ht⟩ : ∃ t, fetchDiscovery (got 0) = .error (.text t) ∧
      shouldRetry (.text t) = shouldRetry (.text why) := by
    rcases hg with hg | ⟨s, h1, h2, hg⟩
    · refine ⟨failedText why, by rw [hg]; rfl, ?_⟩
      have := retry_across failedHead why
      rw [retry_failedHead, Bool.false_or] at this
      exact this
    · refine ⟨unreadText why, ?_, ?_⟩
      · rw [hg]
        exact if_neg (fun h => h ⟨h1, h2⟩)
      have := retry_across unreadHead why
      rw [retry_unreadHead, Bool.false_or] at this
      exact this
  rw [← ht]
  obtain ⟨m, rfl⟩ : ∃ m, maxRetries = m + 1 := ⟨maxRetries - 1, by omega⟩
  simp only [discoverOver, discover, discoverLoop, hf, Nat.zero_add]
  by_cases hc : shouldRetry (.text t) = true ∧ 1 < m + 1
  · rw [if_pos hc]
    refine ⟨fun _ => ⟨hc.2, hc.1⟩, fun _ => ?_⟩
    obtain ⟨k, rfl⟩ : ∃ k, m = k + 1 := ⟨m - 1, by omega⟩
    have grow : ∀ left a, a ≤ (discoverLoop (fun k => fetchDiscovery (got k)) (k + 1 + 1) left a).2 := by
      intro left
      induction left with
      | zero => intro a; exact Nat.le_refl _
      | succ left ih =>
        intro a
        simp only [discoverLoop]
        split
        · exact Nat.le_succ a
        · split
          · exact Nat.le_trans (Nat.le_succ a) (ih (a + 1))
          · exact Nat.le_succ a
    simp only [discoverLoop]
    split
    · exact Nat.lt_succ_self 1
    · split
      · exact grow k (1 + 1)
      · exact Nat.lt_succ_self 1
  · rw [if_neg hc]
    exact ⟨fun h => absurd h (by simp), fun h => absurd ⟨h.2, h.1⟩ hc⟩

/-- **C121**. A discovery that ends with metadata got it with a successful status. -/
theorem C121_found_in_answer (got : Nat → Got M) (maxRetries : Nat) (m : M) (n : Nat)
    (h : discoverOver got maxRetries = (.metadata m, n)) :
    ∃ k s, n = k + 1 ∧ k < maxRetries ∧ got k = .answered s (.ok m) ∧ 200 ≤ s ∧ s < 300 := by
  have key : ∀ left a, left + a = maxRetries → ∀ n,
      discoverLoop (fun k => fetchDiscovery (got k)) maxRetries left a = (.metadata m, n) →
      ∃ k s, n = k + 1 ∧ k < maxRetries ∧ got k = .answered s (.ok m) ∧ 200 ≤ s ∧ s < 300 := by
    intro left
    induction left with
    | zero => intro a _ n h; exact absurd (congrArg Prod.fst h) (by simp [discoverLoop])
    | succ left ih =>
      intro a ha n h
      simp only [discoverLoop] at h
      split at h
      · next m' hm =>
        have h1 : m' = m := by simpa using congrArg Prod.fst h
        have h2 : a + 1 = n := by simpa using congrArg Prod.snd h
        subst h1
        cases hg : got a with
        | failed why => rw [hg] at hm; cases hm
        | answered s d =>
          rw [hg] at hm
          simp only [fetchDiscovery] at hm
          split at hm
          · cases hm
          · next hs =>
            have hs := Classical.not_not.mp hs
            cases d with
            | error why => cases hm
            | ok x => cases hm; exact ⟨a, s, h2.symm, by omega, hg, hs.1, hs.2⟩
      · split at h
        · exact ih (a + 1) (by omega) n h
        · exact absurd (congrArg Prod.fst h) (by simp)
  exact key maxRetries 0 rfl n h

/-! ### Concrete cases -/

/-- A gateway timeout, then a document. (Specification: no counterpart in the code.) -/
def gateway (k : Nat) : Got Nat := if k = 0 then .answered 504 (.error []) else .answered 200 (.ok 7)

example : discoverOver gateway 3 = (.error (.text (refusedText 504)), 1) :=
  C121_status_final_partial gateway 3 504 (.error []) (by decide) rfl (by decide)

/-- A request that failed with the word "connection", then a document. (Specification: no counterpart in the code.) -/
def reset (k : Nat) : Got Nat :=
  if k = 0 then .failed "connection closed before message completed".toList else .answered 200 (.ok 7)

example : discoverOver reset 3 = (.metadata 7, 2) := by decide +kernel

example : 1 < (discoverOver reset 3).2 := by decide +kernel

end Verif.Connect
