import Verif.Spec.HttpAsk
/-!
# C136: the exchanges of an HTTP client
-/
set_option linter.unusedSimpArgs false
namespace Verif.HttpAsk
open Spec

/-- The connection is the one to the server, or a new one will be made. -/
private def Inv (c : Client) : Prop := c.reconnect = true ∨ c.conn = none ∨ c.conn = some (c.host, c.port)

private def serverOf (c : Client) : Server := ⟨c.host, c.port, c.uri⟩

private theorem exchange_inv (b : Bool) : ∀ (as : List Attempt) {c : Client} {r : Result}, Inv c → exchange b as c = some r →
    Inv r.client ∧ serverOf r.client = serverOf c ∧ ∀ q ∈ r.sent, To (serverOf c) q
  | [], _, _, _, h => by cases h
  | a :: as, c, r, hi, h => by
    rw [exchange] at h
    dsimp only at h
    cases b with
    | true =>
      rw [if_pos rfl] at h
      cases h
      refine ⟨?_, rfl, by simp⟩
      unfold Inv at hi ⊢
      dsimp only
      rcases hi with hi | hi | hi
      · exact Or.inl (by rw [hi]; rfl)
      · exact Or.inl (by rw [hi]; simp)
      · exact Or.inr (Or.inr hi)
    | false =>
      rw [if_neg (by simp)] at h
      generalize hre : (c.reconnect || !(c.conn.isSome && a.alive)) = re at h
      -- the client after the connection
      have key : ∀ c1 : Client, c1 = (if re = true then { c with conn := if a.connOk = true then some (c.host, c.port) else none, reconnect := false } else c) →
          Inv c1 ∧ serverOf c1 = serverOf c ∧ ((re && !a.connOk) = false → c1.conn = some (c1.host, c1.port)) := by
        intro c1 e
        cases re with
        | true =>
          rw [if_pos rfl] at e
          cases e
          cases a.connOk
          · exact ⟨Or.inr (Or.inl rfl), rfl, by simp⟩
          · exact ⟨Or.inr (Or.inr rfl), rfl, fun _ => rfl⟩
        | false =>
          rw [if_neg (by simp)] at e
          cases e
          refine ⟨hi, rfl, fun _ => ?_⟩
          rw [Bool.or_eq_false_iff] at hre
          rcases hi with hi | hi | hi
          · rw [hi] at hre; simp at hre
          · rw [hi] at hre; simp at hre
          · exact hi
      generalize hc : (if re = true then { c with conn := if a.connOk = true then some (c.host, c.port) else none, reconnect := false } else c) = c0 at h
      obtain ⟨k1, k2, k3⟩ := key c0 hc.symm
      split at h
      · cases h; exact ⟨k1, k2, by simp⟩
      · rename_i hx
        have hconn := k3 (by simpa using hx)
        have hau : Inv (authorise c0) ∧ serverOf (authorise c0) = serverOf c ∧ (authorise c0).conn = some ((authorise c0).host, (authorise c0).port) := by
          unfold authorise
          split
          · exact ⟨k1, k2, hconn⟩
          · exact ⟨k1, k2, hconn⟩
        generalize authorise c0 = c1 at h hau
        obtain ⟨k1, k2, hconn⟩ := hau
        have hreq : To (serverOf c) ⟨c1.conn, c1.uri, c1.header⟩ := by
          rw [← k2]; exact ⟨hconn, rfl⟩
        have haft : ∀ (keep : Bool) (c2 : Client), Inv c2 → Inv (after keep c2) ∧ serverOf (after keep c2) = serverOf c2 := by
          intro keep c2 h2
          cases keep
          · exact ⟨Or.inr (Or.inl rfl), rfl⟩
          · exact ⟨h2, rfl⟩
        split at h
        · cases h; exact ⟨k1, k2, by simp⟩
        · split at h
          · cases h; exact ⟨k1, k2, by simpa using hreq⟩
          · split at h
            · cases h
              exact ⟨(haft _ _ k1).1, (haft _ _ k1).2.trans k2, by simpa using hreq⟩
            · split at h
              · cases h
                exact ⟨(haft _ _ k1).1, (haft _ _ k1).2.trans k2, by simpa using hreq⟩
              · rename_i k _
                have k1' : Inv { c1 with key := k } := k1
                have k2' : serverOf { c1 with key := k } = serverOf c := k2
                split at h
                · rw [Option.map_eq_some_iff] at h
                  obtain ⟨r', e, rfl⟩ := h
                  obtain ⟨i1, i2, i3⟩ := exchange_inv false as k1' e
                  refine ⟨i1, i2.trans k2', ?_⟩
                  intro q hq
                  rcases List.mem_cons.1 hq with rfl | hq
                  · exact hreq
                  · rw [← k2']; exact i3 q hq
                · cases h
                  exact ⟨(haft _ _ k1').1, (haft _ _ k1').2.trans k2', by simpa using hreq⟩

private theorem step_inv {c c' : Client} {op : Op} {sent : List Request} (hi : Inv c) (h : step c op = some (c', sent)) :
    Inv c' ∧ serverOf c' = told (serverOf c) op ∧ ∀ q ∈ sent, To (serverOf c) q := by
  have hH : ∀ (x : Text) {c : Client}, Inv c → Inv (setHost x c) ∧ serverOf (setHost x c) = { serverOf c with host := x } := by
    intro x c hi
    unfold setHost
    split
    · exact ⟨Or.inl rfl, rfl⟩
    · rename_i e
      have e : c.host = x := Classical.not_not.1 e
      exact ⟨hi, by rw [← e]; rfl⟩
  have hP : ∀ (x : Nat) {c : Client}, Inv c → Inv (setPort x c) ∧ serverOf (setPort x c) = { serverOf c with port := x } := by
    intro x c hi
    unfold setPort
    split
    · exact ⟨Or.inl rfl, rfl⟩
    · rename_i e
      have e : c.port = x := Classical.not_not.1 e
      exact ⟨hi, by rw [← e]; rfl⟩
  cases op with
  | setHost x => cases h; exact ⟨(hH x hi).1, (hH x hi).2, by simp⟩
  | setPort x => cases h; exact ⟨(hP x hi).1, (hP x hi).2, by simp⟩
  | setUri x =>
    cases h
    unfold setUri
    split
    · exact ⟨hi, rfl, by simp⟩
    · rename_i e
      have e : c.uri = x := Classical.not_not.1 e
      exact ⟨hi, by rw [← e]; rfl, by simp⟩
  | setAuthorisation x => cases h; exact ⟨hi, rfl, by simp⟩
  | initialise host port uri auth =>
    cases h
    cases host with
    | none => exact ⟨hi, rfl, by simp⟩
    | some x =>
      have h1 := hH x hi
      cases port with
      | none => exact ⟨h1.1, h1.2, by simp⟩
      | some y =>
        have h2 := hP y h1.1
        rw [h1.2] at h2
        cases uri with
        | none => exact ⟨h2.1, h2.2, by simp⟩
        | some u =>
          have e : (initialise (some x) (some y) (some u) auth c).1 =
              { (if (setPort y (setHost x c)).uri ≠ u then { setPort y (setHost x c) with uri := u, reconnect := true } else setPort y (setHost x c)) with
                authorisation := auth.getD [] } := rfl
          rw [e]
          generalize setPort y (setHost x c) = c2 at h2
          obtain ⟨i, f⟩ := h2
          obtain ⟨f1, f2, f3⟩ := Server.mk.inj f
          have f1 : c2.host = x := f1
          have f2 : c2.port = y := f2
          refine ⟨?_, ?_, by simp⟩
          · split
            · exact Or.inl rfl
            · exact i
          · split
            · show Server.mk c2.host c2.port u = Server.mk x y u
              rw [f1, f2]
            · rename_i e
              have e := Classical.not_not.1 e
              show Server.mk c2.host c2.port c2.uri = Server.mk x y u
              rw [f1, f2, e]
  | exchange b as =>
    simp only [step, Option.map_eq_some_iff] at h
    obtain ⟨r, e, h⟩ := h
    cases h
    exact exchange_inv b as hi e

/-- **C136.** In every history of a client, every request is sent for the resource that was given last, on a connection to the host and the port that were given
last. -/
theorem c136_target : ∀ (ops : List Op) {c : Client} {sent : List (List Request)}, run new ops = some (c, sent) → Right ⟨[], 0, []⟩ ops sent := by
  have gen : ∀ (ops : List Op) {c c' : Client} {sent : List (List Request)}, Inv c → run c ops = some (c', sent) → Right (serverOf c) ops sent := by
    intro ops
    induction ops with
    | nil => intro c c' sent _ h; cases h; exact .nil _
    | cons op ops ih =>
      intro c c' sent hi h
      rw [run] at h
      split at h
      · cases h
      · rename_i c1 s1 e
        rw [Option.map_eq_some_iff] at h
        obtain ⟨r, e2, h⟩ := h
        cases h
        obtain ⟨i1, i2, i3⟩ := step_inv hi e
        refine .cons _ _ _ _ _ i3 ?_
        rw [← i2]
        exact ih i1 e2
  intro ops c sent h
  exact gen ops (Or.inl rfl) h

/-- **C136.** An exchange in which some reply does not ask for an authorisation comes to an end; so does every command that is one of a reply, without a
request. -/
theorem c136_ends_partial : ∀ (as : List Attempt) (c : Client), (∃ a ∈ as, plain a) → ∃ r, exchange false as c = some r
  | [], _, h => by obtain ⟨a, ha, _⟩ := h; cases ha
  | a :: as, c, h => by
    rw [exchange]
    dsimp only
    rw [if_neg (by simp)]
    split
    · exact ⟨_, rfl⟩
    · split
      · exact ⟨_, rfl⟩
      · split
        · exact ⟨_, rfl⟩
        · split
          · exact ⟨_, rfl⟩
          · rename_i d s hr
            split
            · exact ⟨_, rfl⟩
            · split
              · have h' : ∃ a ∈ as, plain a := by
                  obtain ⟨x, hx, y, hy⟩ := h
                  rcases List.mem_cons.1 hx with rfl | hx
                  · rw [hr] at hy; cases hy
                  · exact ⟨x, hx, y, hy⟩
                obtain ⟨r, e⟩ := c136_ends_partial as _ h'
                rw [e]
                exact ⟨_, rfl⟩
              · exact ⟨_, rfl⟩

/-- **C136.** When the server keeps the connection with every reply, an exchange that answers true gives the body of a reply, after replies that asked for an
authorisation, one request for each; all of them were sent, and the replies came and came in time. -/
theorem c136_answer_partial : ∀ (as : List Attempt) {c : Client} {r : Result}, (∀ a ∈ as, a.keep = true) → exchange false as c = some r → r.answer = true →
    ∃ pre a post body, as = pre ++ a :: post ∧ (∀ x ∈ pre, ¬ plain x) ∧ a.reply = .body (some body) ∧ r.body = body ∧ r.sent.length = pre.length + 1 ∧
      ∀ x ∈ pre ++ [a], x.sendOk = true ∧ x.headerOk = true ∧ x.inTime = true
  | [], _, _, _, h, _ => by cases h
  | a :: as, c, r, hk, h, ha => by
    rw [exchange] at h
    dsimp only at h
    rw [if_neg (by simp)] at h
    split at h
    · cases h; cases ha
    · split at h
      · cases h; cases ha
      · rename_i hsend
        split at h
        · cases h; cases ha
        · rename_i hrep
          have ok : a.sendOk = true ∧ a.headerOk = true ∧ a.inTime = true := by simp at hsend hrep; exact ⟨hsend, hrep.1, hrep.2⟩
          split at h
          · rename_i b hb
            cases h
            cases b with
            | none => cases ha
            | some body => exact ⟨[], a, as, body, rfl, by simp, hb, rfl, rfl, by simpa using ok⟩
          · rename_i d s hr
            split at h
            · cases h; cases ha
            · rw [if_pos (hk a List.mem_cons_self), Option.map_eq_some_iff] at h
              obtain ⟨r', e, rfl⟩ := h
              obtain ⟨pre, x, post, body, h1, h2, h3, h4, h5, h6⟩ := c136_answer_partial as (fun y hy => hk y (List.mem_cons_of_mem _ hy)) e ha
              refine ⟨a :: pre, x, post, body, by rw [h1]; rfl, ?_, h3, h4, by simp [h5], ?_⟩
              rotate_left
              · intro y hy
                rcases List.mem_cons.1 hy with rfl | hy
                · exact ok
                · exact h6 y hy
              intro y hy
              rcases List.mem_cons.1 hy with rfl | hy
              · rintro ⟨z, hz⟩; rw [hr] at hz; cases hz
              · exact h2 y hy

/-- **C136.** When nothing goes wrong with the connection, and the server keeps it while it asks for the authorisation (or for a digest that can be made), the
exchange gives the body of the reply and answers true, whatever the client did before. -/
theorem c136_answered (post : List Attempt) (a : Attempt) (body : Text) (hc : a.connOk = true) (hs : a.sendOk = true) (hh : a.headerOk = true)
    (ht : a.inTime = true) (hb : a.reply = .body (some body)) : ∀ (pre : List Attempt) (c : Client),
    (∀ x ∈ pre, x.connOk = true ∧ x.sendOk = true ∧ x.headerOk = true ∧ x.inTime = true ∧ x.keep = true ∧
      (x.reply = .unauthorised true .basic ∨ ∃ k, x.reply = .unauthorised true (.digest (some k)))) →
    ∃ r, exchange false (pre ++ a :: post) c = some r ∧ r.answer = true ∧ r.body = body ∧ r.sent.length = pre.length + 1
  | [], c, _ => by simp [exchange, hc, hs, hh, ht, hb]
  | x :: pre, c, h => by
    obtain ⟨h1, h2, h3, h4, h5, h6⟩ := h x List.mem_cons_self
    have ih := fun c => c136_answered post a body hc hs hh ht hb pre c (fun y hy => h y (List.mem_cons_of_mem _ hy))
    have go : ∀ (c : Client) (q : Request), ∃ r, ((exchange false (pre ++ a :: post) c).map fun r => { r with sent := q :: r.sent }) = some r ∧
        r.answer = true ∧ r.body = body ∧ r.sent.length = (x :: pre).length + 1 := by
      intro c q
      obtain ⟨r, hr⟩ := ih c
      rw [hr.1]
      exact ⟨_, rfl, hr.2.1, hr.2.2.1, by simp [hr.2.2.2]⟩
    rcases h6 with h6 | ⟨k, h6⟩
    all_goals
      simp only [List.cons_append, exchange, h1, h2, h3, h4, h5, h6, procedure, Bool.not_true, Bool.and_false, Bool.and_self, Bool.false_eq_true, if_false, if_true]
      exact go _ _

/-- A server that refuses the authorisation again and again. -/
private def refusal (keep : Bool) : Attempt := ⟨true, true, true, true, true, .unauthorised true .basic, keep⟩

/-- **C136 fails for a server that refuses the authorisation**: the same request with the same key is sent again without end. -/
theorem c136_endless_fails (c : Client) : ∀ n : Nat, exchange false (List.replicate n (refusal true)) c = none := by
  intro n
  induction n generalizing c with
  | zero => rfl
  | succ n ih =>
    rw [List.replicate_succ, exchange]
    simp [refusal, procedure]
    exact ih _

/-- **C136 fails for a server that refuses the authorisation and closes the connection**: the exchange answers true, with nothing. -/
theorem c136_closed_fails (c : Client) : ∃ r, exchange false [refusal false] c = some r ∧ r.answer = true ∧ r.body = [] := by
  simp [exchange, refusal, procedure]

/-- **C136.** Every request of the exchange after an authorisation was given carries it, when the server asks for nothing but that. -/
theorem c136_authorised {x : Text} (hx : x ≠ []) (as : List Attempt) (c : Client) {r : Result} (hb : ∀ a ∈ as, ∀ d k, a.reply ≠ .unauthorised d (.digest k))
    (h : exchange false as (setAuthorisation x c) = some r) : ∀ q ∈ r.sent, q.key = x := by
  have gen : ∀ (as : List Attempt) {c : Client} {r : Result}, (∀ a ∈ as, ∀ d k, a.reply ≠ .unauthorised d (.digest k)) → c.authorisation = x → c.key = x →
      exchange false as c = some r → ∀ q ∈ r.sent, q.key = x := by
    intro as
    induction as with
    | nil => intro c r _ _ _ h; cases h
    | cons a as ih =>
      intro c r hb h1 h2 h
      rw [exchange] at h
      dsimp only at h
      rw [if_neg (by simp)] at h
      generalize (c.reconnect || !(c.conn.isSome && a.alive)) = re at h
      have hc : ∀ c0 : Client, c0 = (if re = true then { c with conn := if a.connOk = true then some (c.host, c.port) else none, reconnect := false } else c) →
          (authorise c0).authorisation = x ∧ (authorise c0).key = x ∧ (authorise c0).header = x := by
        intro c0 e
        have e1 : c0.authorisation = x ∧ c0.key = x := by
          rw [e]; split
          · exact ⟨h1, h2⟩
          · exact ⟨h1, h2⟩
        unfold authorise
        rw [if_pos (by rw [e1.2]; exact List.length_pos_iff.2 hx)]
        exact ⟨e1.1, e1.2, e1.2⟩
      generalize (if re = true then { c with conn := if a.connOk = true then some (c.host, c.port) else none, reconnect := false } else c) = c0 at h hc
      obtain ⟨e1, e2, e3⟩ := hc c0 rfl
      split at h
      · cases h; simp
      · generalize authorise c0 = c1 at h e1 e2 e3
        split at h
        · cases h; simp
        · split at h
          · cases h; simpa using e3
          · split at h
            · cases h; simpa using e3
            · rename_i d s hr
              split at h
              · cases h; simpa using e3
              · rename_i k hk
                have ek : k = x := by
                  cases s with
                  | digest k' => exact absurd hr (hb a List.mem_cons_self d k')
                  | other => cases d <;> simp [procedure] at hk
                  | basic => cases d <;> simp [procedure] at hk; rw [← hk]; exact e1
                split at h
                · rw [Option.map_eq_some_iff] at h
                  obtain ⟨r', e, rfl⟩ := h
                  intro q hq
                  rcases List.mem_cons.1 hq with rfl | hq
                  · exact e3
                  · exact ih (fun y hy => hb y (List.mem_cons_of_mem _ hy)) (c := { c1 with key := k }) e1 ek e q hq
                · cases h; simpa using e3
  exact gen as hb rfl rfl h

/-- A server that answers. -/
private def fine (b : Text) : Attempt := ⟨true, true, true, true, true, .body (some b), true⟩

/-- **C136 fails for an authorisation that is taken back**: it is sent all the same, and also to another server. -/
theorem c136_taken_back_fails {x : Text} (hx : x ≠ []) (h h' b : Text) :
    (run new [.setHost h, .setAuthorisation x, .exchange false [fine b], .setAuthorisation [], .setHost h', .exchange false [fine b]]).map (·.2) =
      some [[], [], [⟨some (h, 0), [], x⟩], [], [], [⟨some (h', 0), [], x⟩]] := by
  have : 0 < x.length := List.length_pos_iff.2 hx
  by_cases e : h = [] <;> by_cases e' : h = h' <;>
    simp [run, step, new, setHost, setAuthorisation, exchange, fine, authorise, after, this, e, e']
  all_goals (try subst e)
  all_goals (try simp_all)

/-- **C136 fails for a new configuration**: the first request carries the key of the old one. -/
theorem c136_renewed_fails {x : Text} (hx : x ≠ []) (y h u b : Text) (p : Nat) :
    ∃ r, exchange false [fine b] (initialise (some h) (some p) (some u) (some y) (setAuthorisation x new)).1 = some r ∧ r.sent.map (·.key) = [x] := by
  have : 0 < x.length := List.length_pos_iff.2 hx
  by_cases e : h = [] <;> by_cases e' : p = 0 <;> by_cases e'' : u = [] <;>
    simp [initialise, setAuthorisation, new, exchange, fine, authorise, after, this, e, e', e'', Ne.symm, eq_comm]

/-- **C136.** A command that is one of a reply is refused, and nothing is sent. -/
theorem c136_command (a : Attempt) (as : List Attempt) (c : Client) :
    ∃ r, exchange true (a :: as) c = some r ∧ r.answer = false ∧ r.sent = [] ∧ r.body = [] := ⟨_, rfl, rfl, rfl, rfl⟩

private theorem search_first (name : Text) (hn : name ≠ []) : ∀ (pre rest : Text), (∀ (i : Nat), i < pre.length → ¬ name <+: (pre ++ name ++ rest).drop i) →
    search name (pre ++ name ++ rest) = some rest
  | [], rest, _ => by
    cases name with
    | nil => exact absurd rfl hn
    | cons x xs =>
      rw [List.nil_append, List.cons_append, search]
      have : (x :: xs).isPrefixOf (x :: (xs ++ rest)) = true := by
        rw [List.isPrefixOf_iff_prefix]; exact ⟨rest, rfl⟩
      rw [if_pos this]
      have e : x :: (xs ++ rest) = (x :: xs) ++ rest := rfl
      rw [e, List.drop_left]
  | p :: pre, rest, h => by
    have h0 := h 0 (by simp)
    rw [List.cons_append, List.cons_append, search]
    rw [if_neg (by rw [List.isPrefixOf_iff_prefix]; exact h0)]
    exact search_first name hn pre rest (fun i hi => by
      have := h (i + 1) (by simp; omega)
      simpa using this)

private theorem value_quoted : ∀ (v post : Text), '"' ∉ v → value (v ++ '"' :: post) = some v
  | [], post, _ => by simp [value]
  | x :: v, post, h => by
    rw [List.cons_append, value, if_neg (fun e => h (by rw [e]; exact List.mem_cons_self)), value_quoted v post (fun e => h (List.mem_cons_of_mem _ e))]
    rfl

/-- **C136.** Of a list of parameters, the value in quotes after the first place of a name is found. -/
theorem c136_key_partial {name : Text} (hn : name ≠ []) (pre v post : Text) (hv : '"' ∉ v)
    (h : ∀ (i : Nat), i < pre.length → ¬ name <+: (pre ++ name ++ ("=\"".toList ++ v ++ '"' :: post)).drop i) :
    searchKey (pre ++ name ++ ("=\"".toList ++ v ++ '"' :: post)) name = some (some v) := by
  unfold searchKey
  rw [search_first name hn _ _ h]
  have e : "=\"".toList ++ v ++ '"' :: post = '=' :: '"' :: (v ++ '"' :: post) := rfl
  rw [e]
  show (value _).map some = _
  rw [value_quoted v post hv]
  rfl

/-- **C136.** A name that is in the text nowhere is not found, and one whose first place is not followed by a value in quotes is refused. -/
theorem c136_key_refused {name : Text} (hn : name ≠ []) (data : Text) :
    ((∀ i : Nat, ¬ name <+: data.drop i) → searchKey data name = some none) ∧
    (∀ pre rest : Text, data = pre ++ name ++ rest → (∀ i : Nat, i < pre.length → ¬ name <+: data.drop i) → (∀ v : Text, rest ≠ '=' :: '"' :: v) →
      searchKey data name = some none) := by
  constructor
  · intro h
    have : ∀ d : Text, (∀ i : Nat, ¬ name <+: d.drop i) → search name d = none := by
      intro d
      induction d with
      | nil => intro _; rw [search, if_neg hn]
      | cons x d ih =>
        intro h
        rw [search, if_neg (by rw [List.isPrefixOf_iff_prefix]; exact h 0)]
        exact ih (fun i => by have := h (i + 1); simpa using this)
    unfold searchKey
    rw [this data h]
  · rintro pre rest rfl h hv
    unfold searchKey
    rw [search_first name hn _ _ h]
    split
    · rename_i e; cases e
    · rename_i v e; cases e; exact absurd rfl (hv v)
    · rfl

/-- **C136 fails for a parameter whose name ends another name**, which is before it: the value of the other one is given. -/
theorem c136_key_fails (v w : Text) (hv : '"' ∉ v) :
    searchKey ("cnonce=\"".toList ++ v ++ '"' :: "nonce=\"".toList ++ w ++ ['"']) "nonce".toList = some (some v) := by
  have e : "cnonce=\"".toList ++ v ++ '"' :: "nonce=\"".toList ++ w ++ ['"'] =
      ['c'] ++ "nonce".toList ++ ("=\"".toList ++ v ++ '"' :: ("nonce=\"".toList ++ w ++ ['"'])) := by
    simp
  rw [e]
  refine c136_key_partial (by decide) ['c'] v _ hv ?_
  intro i hi
  have : i = 0 := by simp at hi; omega
  subst this
  rintro ⟨t, ht⟩
  simp at ht

/-- **C136 fails for a value without a closing quote**: the text is read beyond its end. -/
theorem c136_quote_fails (v : Text) (hv : '"' ∉ v) : searchKey ("realm=\"".toList ++ v) "realm".toList = none := by
  have e : "realm=\"".toList ++ v = [] ++ "realm".toList ++ ("=\"".toList ++ v) := by simp
  unfold searchKey
  rw [e, search_first "realm".toList (by decide) [] _ (by simp)]
  have e2 : "=\"".toList ++ v = '=' :: '"' :: v := rfl
  rw [e2]
  show (value _).map some = _
  have : ∀ v : Text, '"' ∉ v → value v = none := by
    intro v
    induction v with
    | nil => intro _; rfl
    | cons x v ih =>
      intro h
      rw [value, if_neg (fun e => h (by rw [e]; exact List.mem_cons_self)), ih (fun e => h (List.mem_cons_of_mem _ e))]
      rfl
  rw [this v hv]
  rfl

/-- A request that is refused once, and then answered; the server is changed in between two exchanges. -/
example : let ok : Attempt := ⟨true, true, true, true, true, .body (some ['x']), true⟩
    ((run new [.initialise (some ['h']) (some 80) (some ['u']) (some ['k']), .exchange false [refusal true, ok], .setPort 81, .exchange false [ok]]).map (·.2)) =
      some [[], [⟨some (['h'], 80), ['u'], []⟩, ⟨some (['h'], 80), ['u'], ['k']⟩], [], [⟨some (['h'], 81), ['u'], ['k']⟩]] := by decide

end Verif.HttpAsk
