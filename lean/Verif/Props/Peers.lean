import Mathlib.Data.List.TakeWhile
import Verif.Spec.Peers

/-!
# Peers: C63, C95, C96
-/

namespace Verif

theorem peerNow_eq_ok {h : Bytes} {n : UInt64} {c o : Bool} {p : Peer} :
    peerNow h n c o = .ok p ↔ h ≠ [] ∧ n ≠ 0 ∧ (c = true ∨ o = true) ∧ p = ⟨h, n, c, !c⟩ := by
  unfold peerNow
  by_cases h1 : h = [] <;> by_cases h2 : n = 0 <;> cases c <;> cases o <;> simp [h1, h2, eq_comm]

theorem Peer.built_iff {p : Peer} :
    p.Built ↔ p.host ≠ [] ∧ p.port ≠ 0 ∧ p.isOnion = !p.isClear := by
  constructor
  · rintro ⟨h, n, c, o, hp⟩
    obtain ⟨h1, h2, -, rfl⟩ := peerNow_eq_ok.mp hp
    exact ⟨h1, h2, rfl⟩
  · rintro ⟨h1, h2, h3⟩
    refine ⟨p.host, p.port, p.isClear, p.isOnion, peerNow_eq_ok.mpr ⟨h1, h2, ?_, ?_⟩⟩
    · rw [h3]; cases p.isClear <;> simp
    · rw [← h3]

theorem colon_not_mem_natDec (n : Nat) : (58 : UInt8) ∉ natDec n := by
  intro h
  have := natDec_digits n _ h
  revert this
  decide

theorem last_colon_inj {a b : Bytes} {m n : Nat}
    (h : a ++ (58 :: natDec m) = b ++ (58 :: natDec n)) : a = b ∧ m = n := by
  have hr := congrArg List.reverse h
  simp only [List.reverse_append, List.reverse_cons, List.append_assoc, List.singleton_append] at hr
  have key : ∀ (x y u v : Bytes), (58 : UInt8) ∉ x → 58 ∉ y → x ++ 58 :: u = y ++ 58 :: v →
      x = y ∧ u = v := by
    intro x
    induction x with
    | nil =>
      intro y u v _ hy e
      cases y with
      | nil => simpa using e
      | cons c y => simp at e hy; exact absurd e.1 hy.1
    | cons c x ih =>
      intro y u v hx hy e
      cases y with
      | nil => simp at e hx; exact absurd e.1.symm hx.1
      | cons d y =>
        simp only [List.cons_append, List.cons.injEq, List.mem_cons, not_or] at e hx hy
        obtain ⟨h1, h2⟩ := ih y u v hx.2 hy.2 e.2
        exact ⟨by rw [e.1, h1], h2⟩
  obtain ⟨h1, h2⟩ := key _ _ _ _ (by simpa using colon_not_mem_natDec m)
    (by simpa using colon_not_mem_natDec n) hr
  exact ⟨List.reverse_inj.mp h2, natDec_injective (List.reverse_inj.mp h1)⟩

/-! ## C63 -/

/-- C63: the text of a peer determines it. -/
theorem C63_text_injective {p q : Peer} (hp : p.Built) (hq : q.Built) (h : p.str = q.str) : p = q := by
  rw [Peer.built_iff] at hp hq
  obtain ⟨ph, pn, pc, po⟩ := p
  obtain ⟨qh, qn, qc, qo⟩ := q
  obtain ⟨-, -, hp⟩ := hp
  obtain ⟨-, -, hq⟩ := hq
  simp only at hp hq
  subst hp hq
  have e : ∀ (h : Bytes) (n : UInt64) (c : Bool), Peer.str ⟨h, n, c, !c⟩ =
      ((if !c then ascii "onion" else ascii "https") ++ ascii "://" ++ h) ++ (58 :: natDec n.toNat) := by
    intro h n c
    simp [Peer.str, ascii]
  rw [e, e] at h
  obtain ⟨h1, h2⟩ := last_colon_inj h
  have h2 : pn = qn := UInt64.toNat_inj.mp h2
  cases pc <;> cases qc
  all_goals simp [ascii] at h1
  all_goals simp [h1, h2]

theorem mem_peersMap (ps : List Peer) : ∀ m : List Peer,
    (∀ q ∈ ps.foldl (fun m p => p :: m.filter fun q => q.str ≠ p.str) m, q ∈ ps ∨ q ∈ m) ∧
    (∀ q, q ∈ ps ∨ q ∈ m → ∃ q' ∈ ps.foldl (fun m p => p :: m.filter fun q => q.str ≠ p.str) m,
      q'.str = q.str) ∧
    ((m.map Peer.str).Nodup →
      ((ps.foldl (fun m p => p :: m.filter fun q => q.str ≠ p.str) m).map Peer.str).Nodup) := by
  induction ps with
  | nil =>
    intro m
    exact ⟨fun q h => .inr h, fun q h => ⟨q, by simpa using h, rfl⟩, id⟩
  | cons p ps ih =>
    intro m
    obtain ⟨h1, h2, h3⟩ := ih (p :: m.filter fun q => q.str ≠ p.str)
    simp only [List.foldl_cons]
    refine ⟨fun q hq => ?_, fun q hq => ?_, fun hm => h3 ?_⟩
    · rcases h1 q hq with h | h
      · exact .inl (List.mem_cons_of_mem _ h)
      · rcases List.mem_cons.mp h with rfl | h
        · exact .inl (by simp)
        · exact .inr (List.mem_filter.mp h).1
    · by_cases e : q.str = p.str
      · obtain ⟨q', hq', e'⟩ := h2 p (.inr (by simp))
        exact ⟨q', hq', e'.trans e.symm⟩
      · refine h2 q ?_
        rcases hq with hq | hq
        · rcases List.mem_cons.mp hq with rfl | hq
          · exact absurd rfl e
          · exact .inl hq
        · exact .inr (by simp [hq, e])
    · simp only [List.map_cons, List.nodup_cons, List.mem_map, List.mem_filter, not_exists, not_and,
        decide_eq_true_eq]
      exact ⟨fun q hq => hq.2, hm.sublist (List.filter_sublist.map _)⟩

/-- C63: the builder keeps exactly the distinct peers, once each, in some order. -/
theorem C63_builder_keeps_distinct (o : MapOrder) {ps : List Peer} (h : ∀ p ∈ ps, p.Built) :
    (peersNow o ps).Nodup ∧ ∀ p, p ∈ peersNow o ps ↔ p ∈ ps := by
  obtain ⟨h1, h2, h3⟩ := mem_peersMap ps []
  have hm : ∀ p, p ∈ peersNow o ps ↔ p ∈ peersMap ps := fun p => (o.perm _).mem_iff
  refine ⟨?_, fun p => ⟨fun hp => ?_, fun hp => ?_⟩⟩
  · rw [peersNow, (o.perm _).nodup_iff]
    exact (h3 (by simp)).of_map _
  · simpa using h1 p ((hm p).mp hp)
  · obtain ⟨q, hq, e⟩ := h2 p (.inl hp)
    have hq' : q ∈ ps := by simpa using h1 q hq
    obtain rfl := C63_text_injective (h q hq') (h p hp) e
    exact (hm _).mpr hq

/-- C63 refuted: whatever list is saved to the file of the transfer package, reading answers with no
list and no error, and adding any valid peer to it panics. -/
theorem C63_stored_list_lost_neg (o : MapOrder) (s : filePort.S) (ps : List Peer) :
    filePort.retrieve (filePort.save s ps).2 = .ok none ∧
    ∀ host port onion, host ≠ [] → port ≠ 0 →
      addPeer filePort o (filePort.save s ps).2 host port onion =
        (.crash .nilDeref, (filePort.save s ps).2) := by
  refine ⟨rfl, fun host port onion h1 h2 => ?_⟩
  unfold addPeer
  rw [peerNow_eq_ok.mpr ⟨h1, h2, by cases onion <;> simp, rfl⟩]
  rfl

/-- C63 refuted: without a file, adding a peer fails as well; nothing is ever stored. -/
theorem C63_never_added_neg (o : MapOrder) (s : filePort.S) (host : Bytes) (port : UInt64)
    (onion : Bool) :
    (addPeer filePort o s host port onion).1 ≠ .ok () ∧
      (addPeer filePort o s host port onion).2 = s := by
  unfold addPeer
  cases hp : peerNow host port (!onion) onion with
  | err m => simp
  | crash c => simp
  | ok p =>
    cases s with
    | none => simp [filePort, retrPeers]
    | some text => simp [filePort, retrPeers, toPeers]

/-- C63, what holds for a repository that returns what was saved: after a peer was added, the list
holds the old peers and the new one, each once. Missing: such a repository. -/
theorem C63_add_peer_partial {P : PeersPort} (hP : P.Lawful) (o : MapOrder) {s s' : P.S}
    {host : Bytes} {port : UInt64} {onion : Bool}
    (h : addPeer P o s host port onion = (.ok (), s')) :
    ∃ ps ps', P.retrieve s = .ok (some ps) ∧ P.retrieve s' = .ok (some ps') ∧
      ((∀ p ∈ ps, p.Built) → (∀ p ∈ ps', p.Built) ∧ ps'.Nodup ∧
        ∀ p, p ∈ ps' ↔ p ∈ ps ∨ p = ⟨host, port, !onion, onion⟩) := by
  unfold addPeer at h
  cases hp : peerNow host port (!onion) onion with
  | err m => rw [hp] at h; simp at h
  | crash c => rw [hp] at h; simp at h
  | ok p =>
    rw [hp] at h
    simp only at h
    cases hr : P.retrieve s with
    | err m => rw [hr] at h; simp at h
    | crash c => rw [hr] at h; simp at h
    | ok ps =>
      rw [hr] at h
      cases ps with
      | none => simp at h
      | some ps =>
        simp only at h
        have hs := hP.save_ok (s := s) (ps := peersNow o (ps ++ [p])) (by rw [h])
        rw [h] at hs
        refine ⟨ps, _, rfl, hs, fun hb => ?_⟩
        have hpb : p.Built := ⟨_, _, _, _, hp⟩
        have hall : ∀ q ∈ ps ++ [p], q.Built := by
          intro q hq
          rcases List.mem_append.mp hq with hq | hq
          · exact hb q hq
          · simp at hq; rw [hq]; exact hpb
        obtain ⟨h1, h2⟩ := C63_builder_keeps_distinct o hall
        obtain ⟨-, -, -, rfl⟩ := peerNow_eq_ok.mp hp
        refine ⟨fun q hq => hall q ((h2 q).mp hq), h1, fun q => ?_⟩
        rw [h2]
        simp

/-- C63: adding fails without a host or a port, and a failed addition changes nothing. -/
theorem C63_failed_add_changes_nothing {P : PeersPort} (hP : P.Lawful) (o : MapOrder) (s : P.S)
    (host : Bytes) (port : UInt64) (onion : Bool) :
    (host = [] ∨ port = 0 → ∃ m, (addPeer P o s host port onion).1 = .err m) ∧
    ((addPeer P o s host port onion).1 ≠ .ok () → (addPeer P o s host port onion).2 = s) := by
  constructor
  · intro h
    unfold addPeer peerNow
    by_cases h1 : host = []
    · simp [h1]
    · have h2 : port = 0 := by simpa [h1] using h
      simp [h1, h2]
  · unfold addPeer
    cases peerNow host port (!onion) onion with
    | err m => simp
    | crash c => simp
    | ok p =>
      cases P.retrieve s with
      | err m => simp
      | crash c => simp
      | ok ps =>
        cases ps with
        | none => simp
        | some ps => exact hP.save_fails

/-! ## C95 -/

theorem natDec_all_digits (n : Nat) : digitsOnly (natDec n) = true :=
  List.all_eq_true.mpr (natDec_digits n)

theorem decVal_natDec (n : Nat) : decVal (natDec n) = n := by
  unfold decVal natDec
  split
  · rename_i h; subst h; rfl
  · rw [List.foldl_map]
    have key : ∀ (l : List Nat), (∀ d ∈ l, d < 10) →
        List.foldl (fun n d => n * 10 + ((UInt8.ofNat (48 + d)).toNat - 48)) 0 l.reverse =
          Nat.ofDigits 10 l := by
      intro l hl
      induction l with
      | nil => rfl
      | cons d l ih =>
        rw [List.reverse_cons, List.foldl_append, ih fun e he => hl e (by simp [he])]
        simp only [List.foldl_cons, List.foldl_nil, Nat.ofDigits_cons]
        rw [digitByte_toNat (hl d (by simp))]
        omega
    rw [key _ fun d hd => Nat.digits_lt_base (by decide) hd, Nat.ofDigits_digits]

theorem cutLast_of_not_mem {c : UInt8} : ∀ {s : Bytes}, c ∉ s → cutLast c s = none
  | [], _ => rfl
  | d :: s, h => by
    simp only [List.mem_cons, not_or] at h
    rw [cutLast, cutLast_of_not_mem h.2]
    simp [Ne.symm h.1]

theorem cutLast_append {c : UInt8} {b : Bytes} (hb : c ∉ b) :
    ∀ a : Bytes, cutLast c (a ++ c :: b) = some (a, b)
  | [] => by simp [cutLast, cutLast_of_not_mem hb]
  | d :: a => by rw [List.cons_append, cutLast, cutLast_append hb a]

theorem hostByte_iff (c : UInt8) : hostByte c = true ↔
    128 ≤ c ∨ (48 ≤ c ∧ c ≤ 57) ∨ (65 ≤ c ∧ c ≤ 90) ∨ (97 ≤ c ∧ c ≤ 122) ∨
      c ∈ ascii "!$&'()*+,;=:[]<>\"-_.~" := by
  revert c
  apply UInt8.forall_of_fin
  decide +kernel

/-- What a host byte is not. -/
theorem hostByte_not {c : UInt8} (h : hostByte c = true) :
    c ≠ 35 ∧ c ≠ 63 ∧ c ≠ 47 ∧ c ≠ 64 ∧ c ≠ 37 ∧ ¬ c < 32 ∧ c ≠ 127 := by
  revert c
  apply UInt8.forall_of_fin
  decide +kernel

theorem unescapeHost_of_plain : ∀ {s : Bytes}, (∀ c ∈ s, hostByte c = true) → unescapeHost s = some s
  | [], _ => rfl
  | c :: s, h => by
    have h1 := h c (by simp)
    have h2 := unescapeHost_of_plain fun d hd => h d (List.mem_cons_of_mem c hd)
    have h3 : c ≠ 37 := (hostByte_not h1).2.2.2.2.1
    rw [unescapeHost]
    · simp [h1, h2]
    · intro a b cs e
      exact absurd e h3

theorem isDigit_hostByte {c : UInt8} (h : isDigit c = true) : hostByte c = true := by
  simp [hostByte, h]

theorem takeWhile_all {p : UInt8 → Bool} {s : Bytes} (h : ∀ c ∈ s, p c = true) :
    s.takeWhile p = s ∧ s.dropWhile p = [] := by
  induction s with
  | nil => simp
  | cons c s ih =>
    have hc := h c (by simp)
    obtain ⟨h1, h2⟩ := ih fun d hd => h d (by simp [hd])
    simp [hc, h1, h2]

/-- The authority `host:port` of a URL. -/
theorem hostPort_bytes {host : Bytes} (hh : ∀ c ∈ host, hostByte c = true) (n : Nat) :
    ∀ c ∈ host ++ 58 :: natDec n, hostByte c = true := by
  intro c hc
  rcases List.mem_append.mp hc with h | h
  · exact hh c h
  · rcases List.mem_cons.mp h with rfl | h
    · decide
    · exact isDigit_hostByte (natDec_digits n c h)

theorem parseAuthority_plain {host : Bytes} (hh : ∀ c ∈ host, hostByte c = true)
    (hb : host.head? ≠ some 91) (hne : host ≠ []) (n : Nat) :
    parseAuthority (host ++ 58 :: natDec n) = some (host ++ 58 :: natDec n) := by
  have hall := hostPort_bytes hh n
  unfold parseAuthority
  rw [cutLast_of_not_mem fun h => (hostByte_not (hall _ h)).2.2.2.1 rfl]
  simp only
  unfold parseHost
  have hhead : (host ++ 58 :: natDec n).head? ≠ some 91 := by
    cases host with
    | nil => exact absurd rfl hne
    | cons c host => simpa using hb
  rw [if_neg hhead, cutLast_append (colon_not_mem_natDec n)]
  simp only [natDec_all_digits, if_true]
  exact unescapeHost_of_plain hall

theorem getScheme_https (rest : Bytes) :
    getScheme [] (ascii "https" ++ ascii "://" ++ rest) = some (ascii "https", 47 :: 47 :: rest) := by
  simp [ascii, getScheme, lowerByte, isDigit]

theorem getScheme_onion (rest : Bytes) :
    getScheme [] (ascii "onion" ++ ascii "://" ++ rest) = some (ascii "onion", 47 :: 47 :: rest) := by
  simp [ascii, getScheme, lowerByte, isDigit]

theorem urlParse_plain {scheme auth : Bytes} (hs : ∀ c ∈ scheme, hostByte c = true)
    (ha : ∀ c ∈ auth, hostByte c = true)
    (hg : getScheme [] (scheme ++ ascii "://" ++ auth) = some (scheme, 47 :: 47 :: auth))
    (hp : parseAuthority auth = some auth) :
    urlParse (scheme ++ ascii "://" ++ auth) = some (scheme, auth) := by
  have hall : ∀ c ∈ scheme ++ ascii "://" ++ auth, c ≠ 35 ∧ ¬ c < 32 ∧ c ≠ 127 := by
    intro c hc
    simp only [List.mem_append] at hc
    rcases hc with (h | h) | h
    · have := hostByte_not (hs c h); exact ⟨this.1, this.2.2.2.2.2⟩
    · simp [ascii] at h
      rcases h with rfl | rfl <;> decide
    · have := hostByte_not (ha c h); exact ⟨this.1, this.2.2.2.2.2⟩
  obtain ⟨e1, e2⟩ := takeWhile_all (p := fun c => decide (c ≠ 35)) (s := scheme ++ ascii "://" ++ auth)
    fun c hc => by simpa using (hall c hc).1
  have e3 : (scheme ++ ascii "://" ++ auth).any (fun c => decide (c < 32) || c == 127) = false := by
    rw [List.any_eq_false]
    intro c hc
    have := (hall c hc).2
    simp [this]
  have h63 : ∀ c ∈ (47 :: 47 :: auth : Bytes), decide (c ≠ 63) = true := by
    intro c hc
    simp only [List.mem_cons] at hc
    rcases hc with rfl | rfl | h
    · decide
    · decide
    · simpa using (hostByte_not (ha c h)).2.1
  obtain ⟨e4, -⟩ := takeWhile_all h63
  obtain ⟨e5, e6⟩ := takeWhile_all (p := fun c => decide (c ≠ 47)) (s := auth)
    fun c hc => by simpa using (hostByte_not (ha c hc)).2.2.1
  unfold urlParse
  simp only [e1, e2, e3, List.tail_nil, escapesOk]
  simp only [Bool.false_eq_true, if_false, not_true_eq_false]
  show (getScheme [] (scheme ++ ascii "://" ++ auth)).bind _ = _
  rw [hg]
  simp only [Option.bind_some, e4, e5, e6, hp, escapesOk, if_true]
  rfl

/-- C95: a peer with a plain host and a port below `2^63` comes back from its URL. -/
theorem C95_url_round_trip {p : Peer} (hp : p.Built) (hh : PlainHost p.host)
    (hn : p.port.toNat < 2 ^ 63) : toPeer p.toURL = .ok p := by
  rw [Peer.built_iff] at hp
  obtain ⟨host, port, clear, onion⟩ := p
  obtain ⟨h1, h2, h3⟩ := hp
  simp only at h1 h2 h3 hh hn
  subst h3
  have hb : ∀ c ∈ host, hostByte c = true := fun c hc => (hostByte_iff c).mpr (hh.2 c hc)
  have hauth := parseAuthority_plain hb hh.1 h1 port.toNat
  have hall := hostPort_bytes hb port.toNat
  have hparse : urlParse (Peer.toURL ⟨host, port, clear, !clear⟩) =
      some (if clear then ascii "https" else ascii "onion", host ++ 58 :: natDec port.toNat) := by
    cases clear
    · have := urlParse_plain (by decide) hall (getScheme_onion _) hauth
      simpa [Peer.toURL, ascii] using this
    · have := urlParse_plain (by decide) hall (getScheme_https _) hauth
      simpa [Peer.toURL, ascii] using this
  have hsplit : splitHostPort (host ++ 58 :: natDec port.toNat) = (host, natDec port.toNat) := by
    unfold splitHostPort
    rw [cutLast_append (colon_not_mem_natDec _)]
    simp only [natDec_all_digits, if_true]
    rw [if_neg (by simp [hh.1])]
  have hport : atoiPort (natDec port.toNat) = some port := by
    unfold atoiPort
    rw [if_neg (natDec_ne_nil _), decVal_natDec, if_pos hn]
    simp
  unfold toPeer
  rw [hparse]
  simp only [hsplit, hport]
  refine peerNow_eq_ok.mpr ⟨h1, h2, ?_, ?_⟩
  · cases clear <;> simp
  · cases clear
    · simp [show ¬ ascii "onion" = ascii "https" by decide]
    · simp

theorem takeWhile_length {p : UInt8 → Bool} (s : Bytes) :
    (s.takeWhile p).length ≤ s.length ∧
      ((s.takeWhile p).length = s.length → s.takeWhile p = s ∧ ∀ c ∈ s, p c = true) := by
  induction s with
  | nil => simp
  | cons c s ih =>
    by_cases hc : p c = true
    · simp only [List.takeWhile_cons, hc, if_true, List.length_cons]
      refine ⟨by omega, fun h => ?_⟩
      obtain ⟨h1, h2⟩ := ih.2 (by omega)
      exact ⟨by rw [h1], by simpa [hc] using h2⟩
    · simp [hc]

theorem unescapeHost_length : ∀ {s r : Bytes}, unescapeHost s = some r →
    r.length ≤ s.length ∧ (r.length = s.length → r = s ∧ ∀ c ∈ s, hostByte c = true)
  | [], r, h => by
    simp only [unescapeHost, Option.some.injEq] at h
    subst h
    simp
  | c :: s, r, h => by
    by_cases h37 : ∃ a b cs, c = 37 ∧ s = a :: b :: cs
    · obtain ⟨a, b, cs, rfl, rfl⟩ := h37
      rw [unescapeHost] at h
      cases hx : hexVal a with
      | none => simp [hx] at h
      | some x =>
        cases hy : hexVal b with
        | none => simp [hx, hy] at h
        | some y =>
          simp only [hx, hy, Option.bind_eq_bind, Option.bind_some] at h
          split at h
          · simp at h
          · cases hr : unescapeHost cs with
            | none => simp [hr] at h
            | some t =>
              simp only [hr, Option.bind_some, Option.some.injEq] at h
              have := (unescapeHost_length hr).1
              subst h
              simp only [List.length_cons]
              exact ⟨by omega, by omega⟩
    · rw [unescapeHost] at h
      · split at h
        · rename_i hc
          cases hr : unescapeHost s with
          | none => simp [hr] at h
          | some t =>
            simp only [hr, Option.map_some, Option.some.injEq] at h
            subst h
            obtain ⟨h1, h2⟩ := unescapeHost_length hr
            simp only [List.length_cons]
            refine ⟨by omega, fun e => ?_⟩
            obtain ⟨h3, h4⟩ := h2 (by omega)
            exact ⟨by rw [h3], by simp [hc]; exact h4⟩
        · simp at h
      · intro a b cs e1 e2
        exact h37 ⟨a, b, cs, e1, e2⟩

theorem cutLast_some {c : UInt8} : ∀ {s a b : Bytes}, cutLast c s = some (a, b) → s = a ++ c :: b
  | [], a, b, h => by simp [cutLast] at h
  | d :: s, a, b, h => by
    rw [cutLast] at h
    cases e : cutLast c s with
    | some x =>
      obtain ⟨a', b'⟩ := x
      rw [e] at h
      simp only [Option.some.injEq, Prod.mk.injEq] at h
      obtain ⟨rfl, rfl⟩ := h
      rw [cutLast_some e]
      rfl
    | none =>
      rw [e] at h
      simp only at h
      split at h
      · simp only [Option.some.injEq, Prod.mk.injEq] at h
        obtain ⟨rfl, rfl⟩ := h
        rename_i e; simp [e]
      · simp at h

theorem unescapeZone_length : ∀ {s r : Bytes}, unescapeZone s = some r →
    r.length ≤ s.length ∧ (r.length = s.length → r = s ∧ ∀ c ∈ s, hostByte c = true)
  | [], r, h => by
    simp only [unescapeZone, Option.some.injEq] at h
    subst h
    simp
  | c :: s, r, h => by
    by_cases h37 : ∃ a b cs, c = 37 ∧ s = a :: b :: cs
    · obtain ⟨a, b, cs, rfl, rfl⟩ := h37
      rw [unescapeZone] at h
      cases hx : hexVal a with
      | none => simp [hx] at h
      | some x =>
        cases hy : hexVal b with
        | none => simp [hx, hy] at h
        | some y =>
          simp only [hx, hy, Option.bind_eq_bind, Option.bind_some] at h
          split at h
          · simp at h
          · cases hr : unescapeZone cs with
            | none => simp [hr] at h
            | some t =>
              simp only [hr, Option.bind_some, Option.some.injEq] at h
              have := (unescapeZone_length hr).1
              subst h
              simp only [List.length_cons]
              exact ⟨by omega, by omega⟩
    · rw [unescapeZone] at h
      · split at h
        · rename_i hc
          cases hr : unescapeZone s with
          | none => simp [hr] at h
          | some t =>
            simp only [hr, Option.map_some, Option.some.injEq] at h
            subst h
            obtain ⟨h1, h2⟩ := unescapeZone_length hr
            simp only [List.length_cons]
            refine ⟨by omega, fun e => ?_⟩
            obtain ⟨h3, h4⟩ := h2 (by omega)
            exact ⟨by rw [h3], by simp [hc]; exact h4⟩
        · simp at h
      · intro a b cs e1 e2
        exact h37 ⟨a, b, cs, e1, e2⟩

theorem cutZone_some : ∀ {s a z : Bytes}, cutZone s = some (a, z) → s = a ++ z
  | [], a, z, h => by simp [cutZone] at h
  | c :: s, a, z, h => by
    by_cases h37 : ∃ cs, c = 37 ∧ s = 50 :: 53 :: cs
    · obtain ⟨cs, rfl, rfl⟩ := h37
      simp only [cutZone, Option.some.injEq, Prod.mk.injEq] at h
      obtain ⟨rfl, rfl⟩ := h
      rfl
    · rw [cutZone] at h
      · cases e : cutZone s with
        | none => simp [e] at h
        | some y =>
          obtain ⟨a', z'⟩ := y
          simp only [e, Option.map_some, Option.some.injEq, Prod.mk.injEq] at h
          obtain ⟨rfl, rfl⟩ := h
          rw [cutZone_some e]
          rfl
      · intro cs e1 e2
        exact h37 ⟨cs, e1, e2⟩

/-- A host is not longer than its text, and as long only if nothing is escaped. -/
theorem parseHost_length {x r : Bytes} (h : parseHost x = some r) :
    r.length ≤ x.length ∧ (r.length = x.length → r = x ∧ ∀ c ∈ x, hostByte c = true) := by
  unfold parseHost at h
  split at h
  · cases hc : cutLast 93 x with
    | none => rw [hc] at h; simp at h
    | some y =>
      obtain ⟨before, after⟩ := y
      rw [hc] at h
      simp only at h
      split at h
      · cases hz : cutZone before with
        | none => rw [hz] at h; exact unescapeHost_length h
        | some y =>
          obtain ⟨front, zone⟩ := y
          rw [hz] at h
          simp only at h
          cases h1 : unescapeHost front with
          | none => simp [h1] at h
          | some r1 =>
            cases h2 : unescapeZone zone with
            | none => simp [h1, h2] at h
            | some r2 =>
              cases h3 : unescapeHost (93 :: after) with
              | none => simp [h1, h2, h3] at h
              | some r3 =>
                simp only [h1, h2, h3, Option.bind_eq_bind, Option.bind_some,
                  Option.some.injEq] at h
                subst h
                have hx : x = front ++ zone ++ (93 :: after) := by
                  rw [cutLast_some hc, cutZone_some hz]
                obtain ⟨l1, k1⟩ := unescapeHost_length h1
                obtain ⟨l2, k2⟩ := unescapeZone_length h2
                obtain ⟨l3, k3⟩ := unescapeHost_length h3
                rw [hx]
                simp only [List.length_append]
                refine ⟨by omega, fun e => ?_⟩
                obtain ⟨rfl, m1⟩ := k1 (by omega)
                obtain ⟨rfl, m2⟩ := k2 (by omega)
                obtain ⟨rfl, m3⟩ := k3 (by omega)
                refine ⟨rfl, fun c hc => ?_⟩
                rcases List.mem_append.mp hc with hc | hc
                · rcases List.mem_append.mp hc with hc | hc
                  · exact m1 c hc
                  · exact m2 c hc
                · exact m3 c hc
      · simp at h
  · split at h
    · split at h
      · exact unescapeHost_length h
      · simp at h
    · exact unescapeHost_length h

theorem parseHost_bracket {x r : Bytes} (h : parseHost x = some r) (hx : x.head? = some 91) :
    ∃ a b, x = a ++ 93 :: b ∧ (b = [] ∨ (b.head? = some 58 ∧ digitsOnly b.tail)) := by
  unfold parseHost at h
  rw [if_pos hx] at h
  split at h
  · simp at h
  · rename_i a b e
    split at h
    · rename_i hb
      exact ⟨a, b, cutLast_some e, hb⟩
    · simp at h

theorem splitHostPort_length {s : Bytes} (h : (splitHostPort s).2 ≠ []) :
    digitsOnly (splitHostPort s).2 = true ∧
    (splitHostPort s).1.length + 1 + (splitHostPort s).2.length ≤ s.length ∧
    ((splitHostPort s).1.length + 1 + (splitHostPort s).2.length = s.length →
      s = (splitHostPort s).1 ++ 58 :: (splitHostPort s).2 ∧
      ¬ ((splitHostPort s).1.head? = some 91 ∧ (splitHostPort s).1.getLast? = some 93)) := by
  unfold splitHostPort at h ⊢
  cases e : cutLast 58 s with
  | none =>
    rw [e] at h
    simp only at h
    split at h <;> simp at h
  | some x =>
    obtain ⟨a, b⟩ := x
    rw [e] at h
    have hs := cutLast_some e
    simp only at h ⊢
    by_cases hd : digitsOnly b = true
    · simp only [hd, if_true] at h ⊢
      by_cases hb : a.head? = some 91 ∧ a.getLast? = some 93
      · simp only [if_pos hb] at h ⊢
        have hl : a.tail.dropLast.length < a.length := by
          cases a with
          | nil => simp at hb
          | cons c a => simp
        refine ⟨hd, ?_, fun hh => ?_⟩
        · rw [hs]; simp only [List.length_append, List.length_cons]; omega
        · rw [hs] at hh; simp only [List.length_append, List.length_cons] at hh; omega
      · simp only [if_neg hb] at h ⊢
        refine ⟨hd, ?_, fun _ => ⟨hs, hb⟩⟩
        rw [hs]; simp only [List.length_append, List.length_cons]; omega
    · simp only [hd, Bool.false_eq_true, if_false] at h
      split at h <;> simp at h

theorem decVal_lt {s : Bytes} (h : digitsOnly s = true) : decVal s < 10 ^ s.length := by
  have key : ∀ (s : Bytes) (n : Nat), (∀ c ∈ s, isDigit c = true) →
      s.foldl (fun n c => n * 10 + (c.toNat - 48)) n < (n + 1) * 10 ^ s.length := by
    intro s
    induction s with
    | nil => intro n _; simp
    | cons c s ih =>
      intro n hs
      have hc : c.toNat ≤ 57 := by
        have := hs c (by simp)
        simp only [isDigit, Bool.and_eq_true, decide_eq_true_eq] at this
        exact UInt8.le_iff_toNat_le.mp this.2
      have h1 := ih (n * 10 + (c.toNat - 48)) fun d hd => hs d (by simp [hd])
      have h2 : (n * 10 + (c.toNat - 48) + 1) * 10 ^ s.length ≤ ((n + 1) * 10) * 10 ^ s.length :=
        Nat.mul_le_mul_right _ (by omega)
      simp only [List.foldl_cons, List.length_cons, Nat.pow_succ]
      calc _ < _ := h1
        _ ≤ _ := h2
        _ = _ := by ring
  have := key s 0 (List.all_eq_true.mp h)
  simpa [decVal] using this

theorem takeWhile_scheme {scheme : Bytes} (hs : ∀ c ∈ scheme, hostByte c = true) (auth : Bytes) :
    (scheme ++ ascii "://" ++ auth).takeWhile (fun c => decide (c ≠ 35)) =
      scheme ++ ascii "://" ++ auth.takeWhile (fun c => decide (c ≠ 35)) := by
  have h : ∀ c ∈ scheme ++ ascii "://", decide (c ≠ 35) = true := by
    intro c hc
    rcases List.mem_append.mp hc with h | h
    · simpa using (hostByte_not (hs c h)).1
    · simp [ascii] at h
      rcases h with rfl | rfl <;> decide
  rw [List.takeWhile_append_of_pos h]

theorem urlParse_host {scheme sch auth hp : Bytes} (hs : ∀ c ∈ scheme, hostByte c = true)
    (hg : ∀ a, getScheme [] (scheme ++ ascii "://" ++ a) = some (scheme, 47 :: 47 :: a))
    (h : urlParse (scheme ++ ascii "://" ++ auth) = some (sch, hp)) :
    hp.length ≤ auth.length ∧
      (hp.length = auth.length → parseHost auth = some hp ∧ hp = auth ∧
        ∀ c ∈ auth, hostByte c = true) := by
  unfold urlParse at h
  simp only [takeWhile_scheme hs] at h
  split at h
  · simp at h
  split at h
  · simp at h
  simp only [Option.bind_eq_bind, Option.bind_some, hg] at h
  have e47 : (47 :: 47 :: auth.takeWhile (fun c => decide (c ≠ 35))).takeWhile
      (fun c => decide (c ≠ 63)) = 47 :: 47 ::
        (auth.takeWhile (fun c => decide (c ≠ 35))).takeWhile (fun c => decide (c ≠ 63)) := by
    simp
  rw [e47] at h
  simp only at h
  generalize hA : ((auth.takeWhile (fun c => decide (c ≠ 35))).takeWhile
    (fun c => decide (c ≠ 63))).takeWhile (fun c => decide (c ≠ 47)) = A at h
  have l1 := takeWhile_length (p := fun c => decide (c ≠ 35)) auth
  have l2 := takeWhile_length (p := fun c => decide (c ≠ 63))
    (auth.takeWhile (fun c => decide (c ≠ 35)))
  have l3 := takeWhile_length (p := fun c => decide (c ≠ 47))
    ((auth.takeWhile (fun c => decide (c ≠ 35))).takeWhile (fun c => decide (c ≠ 63)))
  rw [hA] at l3
  have hAle : A.length ≤ auth.length := by omega
  have hAeq : A.length = auth.length → A = auth := by
    intro e
    have a1 := l1.2 (by omega)
    have a2 := l2.2 (by omega)
    have a3 := l3.2 (by omega)
    rw [a3.1, a2.1, a1.1]
  cases hpa : parseAuthority A with
  | none => simp [hpa] at h
  | some x =>
    simp only [hpa, Option.bind_some] at h
    split at h
    · simp only [Option.some.injEq, Prod.mk.injEq] at h
      obtain ⟨-, rfl⟩ := h
      unfold parseAuthority at hpa
      cases e : cutLast 64 A with
      | none =>
        rw [e] at hpa
        simp only at hpa
        have hu := parseHost_length hpa
        refine ⟨by omega, fun hl => ?_⟩
        obtain rfl := hAeq (by omega)
        obtain ⟨h1, h2⟩ := hu.2 hl
        exact ⟨hpa, h1, h2⟩
      | some y =>
        obtain ⟨u, t⟩ := y
        rw [e] at hpa
        simp only at hpa
        cases hph : parseHost t with
        | none => simp [hph] at hpa
        | some z =>
          rw [hph] at hpa
          simp only at hpa
          split at hpa
          · simp only [Option.some.injEq] at hpa
            subst hpa
            have hu := (parseHost_length hph).1
            have := congrArg List.length (cutLast_some e)
            simp only [List.length_append, List.length_cons] at this
            exact ⟨by omega, fun _ => by omega⟩
          · simp at hpa
    · simp at h

/-- C95: these are the only peers that come back from their URL. -/
theorem C95_url_round_trip_only {p : Peer} (h : toPeer p.toURL = .ok p) :
    PlainHost p.host ∧ p.port.toNat < 2 ^ 63 := by
  have hb : p.Built := by
    unfold toPeer at h
    split at h
    · simp at h
    · split at h
      · simp at h
      · exact ⟨_, _, _, _, h⟩
  rw [Peer.built_iff] at hb
  obtain ⟨host, port, clear, onion⟩ := p
  obtain ⟨h1, h2, h3⟩ := hb
  simp only at h1 h2 h3 ⊢
  subst h3
  unfold toPeer at h
  cases hu : urlParse (Peer.toURL ⟨host, port, clear, !clear⟩) with
  | none => rw [hu] at h; simp at h
  | some x =>
    obtain ⟨sch, hp⟩ := x
    rw [hu] at h
    simp only at h
    cases ha : atoiPort (splitHostPort hp).2 with
    | none => rw [ha] at h; simp at h
    | some n =>
      rw [ha] at h
      simp only at h
      obtain ⟨-, -, -, e⟩ := peerNow_eq_ok.mp h
      simp only [Peer.mk.injEq] at e
      obtain ⟨eh, rfl, -, -⟩ := e
      unfold atoiPort at ha
      split at ha
      · simp at ha
      rename_i hne
      split at ha
      · rename_i hlt
        simp only [Option.some.injEq] at ha
        have hv : port.toNat = decVal (splitHostPort hp).2 := by
          rw [← ha]
          simp
          omega
        obtain ⟨hd, hle, heq⟩ := splitHostPort_length hne
        have hdig : (natDec port.toNat).length ≤ (splitHostPort hp).2.length :=
          natDec_length_le (List.length_pos_iff.mpr hne) (by rw [hv]; exact decVal_lt hd)
        have hurl : hp.length ≤ (host ++ 58 :: natDec port.toNat).length ∧
            (hp.length = (host ++ 58 :: natDec port.toNat).length →
              parseHost (host ++ 58 :: natDec port.toNat) = some hp ∧
              hp = host ++ 58 :: natDec port.toNat ∧
              ∀ c ∈ host ++ 58 :: natDec port.toNat, hostByte c = true) := by
          cases clear
          · exact urlParse_host (scheme := ascii "onion") (by decide) getScheme_onion
              (by simpa [Peer.toURL, ascii] using hu)
          · exact urlParse_host (scheme := ascii "https") (by decide) getScheme_https
              (by simpa [Peer.toURL, ascii] using hu)
        rw [← eh] at hle heq
        simp only [List.length_append, List.length_cons] at hurl
        obtain ⟨g1, g2, g3⟩ := hurl.2 (by omega)
        obtain ⟨k1, k2⟩ := heq (by omega)
        refine ⟨⟨fun hbr => ?_, fun c hc => (hostByte_iff c).mp (g3 c (by simp [hc]))⟩, by omega⟩
        obtain ⟨a, b, hab, hcase⟩ := parseHost_bracket g1 (by
          cases host with
          | nil => simp at hbr
          | cons c host => simpa using hbr)
        apply k2
        refine ⟨hbr, ?_⟩
        rcases hcase with rfl | ⟨hb1, hb2⟩
        · have := congrArg List.getLast? hab
          have hn0 := natDec_ne_nil port.toNat
          rw [List.getLast?_append, List.getLast?_cons] at this
          simp at this
          have hmem : (93 : UInt8) ∈ natDec port.toNat := by
            cases hl : (natDec port.toNat).getLast? with
            | none => simp [hn0] at hl
            | some d =>
              rw [hl] at this
              simp at this
              rw [← this]
              exact List.mem_of_getLast? hl
          have := natDec_digits _ _ hmem
          exact absurd this (by decide)
        · cases b with
          | nil => simp at hb1
          | cons d b =>
            simp only [List.head?_cons, Option.some.injEq] at hb1
            subst hb1
            have e2 : host ++ 58 :: natDec port.toNat = (a ++ [93]) ++ 58 :: b := by
              rw [hab]; simp
            have e3 : cutLast 58 (host ++ 58 :: natDec port.toNat) = some (a ++ [93], b) := by
              rw [e2]
              refine cutLast_append (fun hm => ?_) _
              have := List.all_eq_true.mp hb2 _ (by simpa using hm)
              exact absurd this (by decide)
            rw [cutLast_append (colon_not_mem_natDec _)] at e3
            simp only [Option.some.injEq, Prod.mk.injEq] at e3
            rw [e3.1]
            simp
      · simp at ha

/-- C95 refuted: hosts in brackets, the way IPv6 addresses are written, do not come back. -/
theorem C95_brackets_neg (p : Peer) (h : p.host.head? = some 91) : toPeer p.toURL ≠ .ok p :=
  fun hp => (C95_url_round_trip_only hp).1.1 h

/-! ## C96 -/

theorem spaceChars_iff {c : Nat} : c ∈ spaceChars ↔ WhiteSpace c := by
  unfold spaceChars WhiteSpace
  simp only [List.mem_cons, List.not_mem_nil, or_false]
  omega

/-- No text is the beginning of another one. -/
def PrefixFree (ts : List Bytes) : Prop := ∀ t ∈ ts, ∀ u ∈ ts, t <+: u → t = u

theorem stripOne_eq_none {ts : List Bytes} {s : Bytes} :
    stripOne ts s = none ↔ ∀ t ∈ ts, ¬ t <+: s := by
  unfold stripOne
  simp

theorem stripOne_append {ts : List Bytes} (hp : PrefixFree ts) {t : Bytes} (ht : t ∈ ts) (x : Bytes) :
    stripOne ts (t ++ x) = some x := by
  unfold stripOne
  cases h : ts.find? fun u => u.isPrefixOf (t ++ x) with
  | none =>
    have := List.find?_eq_none.mp h t ht
    simp at this
  | some u =>
    have h1 := List.mem_of_find?_eq_some h
    have h2 : u <+: t ++ x := by simpa using List.find?_some h
    have : u = t := by
      rcases List.prefix_or_prefix_of_prefix h2 (List.prefix_append t x) with h | h
      · exact hp u h1 t ht h
      · exact (hp t ht u h1 h).symm
    simp [this]

theorem stripAll_none {ts : List Bytes} {s : Bytes} (h : stripOne ts s = none) (n : Nat) :
    stripAll ts n s = s := by
  cases n with
  | zero => rfl
  | succ n => rw [stripAll, h]

theorem stripAll_texts {ts : List Bytes} (hp : PrefixFree ts) {s : Bytes} (hs : stripOne ts s = none) :
    ∀ (w : List Bytes) (n : Nat), (∀ t ∈ w, t ∈ ts) → w.length ≤ n → stripAll ts n (w.flatten ++ s) = s
  | [], n, _, _ => by simpa using stripAll_none hs n
  | t :: w, 0, _, h => by simp at h
  | t :: w, n + 1, hw, h => by
    rw [List.flatten_cons, List.append_assoc, stripAll, stripOne_append hp (hw t (by simp))]
    exact stripAll_texts hp hs w n (fun u hu => hw u (by simp [hu])) (by simpa using h)

theorem stripAll_spec {ts : List Bytes} (hne : [] ∉ ts) : ∀ (n : Nat) (s : Bytes), s.length ≤ n →
    ∃ w : List Bytes, (∀ t ∈ w, t ∈ ts) ∧ s = w.flatten ++ stripAll ts n s ∧
      ∀ t ∈ ts, ¬ t <+: stripAll ts n s
  | 0, s, h => by
    obtain rfl : s = [] := List.length_eq_zero_iff.mp (by omega)
    refine ⟨[], by simp, by simp [stripAll], ?_⟩
    intro t ht hp
    rw [stripAll, List.prefix_nil] at hp
    exact hne (hp ▸ ht)
  | n + 1, s, h => by
    cases hs : stripOne ts s with
    | none =>
      rw [stripAll, hs]
      exact ⟨[], by simp, by simp, stripOne_eq_none.mp hs⟩
    | some r =>
      rw [stripAll, hs]
      unfold stripOne at hs
      rw [Option.map_eq_some_iff] at hs
      obtain ⟨t, ht, rfl⟩ := hs
      have h1 := List.mem_of_find?_eq_some ht
      have h2 : t <+: s := by simpa using List.find?_some ht
      obtain ⟨r, rfl⟩ := h2
      have h3 : 0 < t.length := List.length_pos_iff.mpr fun e => hne (e ▸ h1)
      rw [List.drop_left]
      obtain ⟨w, hw, he, hn⟩ := stripAll_spec hne n r (by simp at h; omega)
      refine ⟨t :: w, ?_, ?_, hn⟩
      · intro u hu
        rcases List.mem_cons.mp hu with rfl | hu
        · exact h1
        · exact hw u hu
      · rw [List.flatten_cons, List.append_assoc, ← he]

private def fore : List Bytes := spaceChars.map utf8
private def aft : List Bytes := spaceChars.map fun c => (utf8 c).reverse

private theorem fore_free : PrefixFree fore := by unfold PrefixFree fore; decide +kernel
private theorem aft_free : PrefixFree aft := by unfold PrefixFree aft; decide +kernel

/-- Texts of white space. -/
private theorem space_texts {cs : List Nat} (h : ∀ c ∈ cs, WhiteSpace c) : ∀ t ∈ cs.map utf8, t ∈ fore := by
  intro t ht
  obtain ⟨c, hc, rfl⟩ := List.mem_map.mp ht
  exact List.mem_map.mpr ⟨c, spaceChars_iff.mpr (h c hc), rfl⟩

private theorem utf8_pos (c : Nat) : 1 ≤ (utf8 c).length := by
  unfold utf8
  split
  · simp
  split
  · simp
  split <;> simp

private theorem length_le_flatten (cs : List Nat) : cs.length ≤ ((cs.map utf8).flatten).length := by
  induction cs with
  | nil => simp
  | cons c cs ih =>
    have := utf8_pos c
    simp only [List.map_cons, List.flatten_cons, List.length_append, List.length_cons]
    omega

private theorem flatten_reverse (cs : List Nat) : ((cs.map utf8).flatten).reverse =
    (cs.reverse.map fun c => (utf8 c).reverse).flatten := by
  induction cs with
  | nil => rfl
  | cons c cs ih => simp [ih]

/-- White space around a text that neither begins nor ends with the first or last byte of white space. -/
theorem trimSpace_pad {a b : List Nat} {c d : UInt8} {m s : Bytes} (hs : s = c :: m ++ [d])
    (ha : ∀ x ∈ a, WhiteSpace x) (hb : ∀ x ∈ b, WhiteSpace x)
    (hc : ∀ t ∈ spaceChars.map utf8, t.head? ≠ some c) (hd : d < 128 ∧ ¬ WhiteSpace d.toNat) :
    trimSpace ((a.map utf8).flatten ++ s ++ (b.map utf8).flatten) = s := by
  have h1 : ∀ x : Bytes, stripOne fore (s ++ x) = none := by
    intro x
    rw [stripOne_eq_none]
    intro t ht hp
    have : t.head? ≠ some c := hc t ht
    have hne : t ≠ [] := by
      obtain ⟨n, -, rfl⟩ := List.mem_map.mp ht
      have := utf8_pos n
      intro e
      rw [e] at this
      simp at this
    subst hs
    obtain ⟨y, hy⟩ := hp
    cases t with
    | nil => exact hne rfl
    | cons z t =>
      simp only [List.cons_append, List.cons.injEq] at hy
      rw [hy.1] at this
      exact this rfl
  have h2 : stripOne aft s.reverse = none := by
    rw [stripOne_eq_none]
    intro t ht hp
    subst hs
    obtain ⟨n, hn, rfl⟩ := List.mem_map.mp ht
    have key : ∀ n ∈ spaceChars, ∀ z, (utf8 n).reverse.head? = some z → z < 128 → WhiteSpace z.toNat := by
      intro n hn z hz h
      have : ∀ n ∈ spaceChars, ∀ z ∈ (utf8 n).reverse.head?, z < 128 → z.toNat ∈ spaceChars := by
        decide +kernel
      exact spaceChars_iff.mp (this n hn z hz h)
    obtain ⟨y, hy⟩ := hp
    cases hr : (utf8 n).reverse with
    | nil =>
      have := utf8_pos n
      have e := congrArg List.length hr
      simp at e
      simp [e] at this
    | cons z r =>
      rw [hr] at hy
      have hz : z = d := by
        have := congrArg List.head? hy
        simpa using this
      exact hd.2 (key n hn d (by rw [hr, hz]; rfl) hd.1)
  unfold trimSpace
  simp only
  have e1 : stripAll (spaceChars.map utf8) ((a.map utf8).flatten ++ s ++ (b.map utf8).flatten).length
      ((a.map utf8).flatten ++ s ++ (b.map utf8).flatten) = s ++ (b.map utf8).flatten := by
    rw [List.append_assoc]
    refine stripAll_texts fore_free (h1 _) _ _ (space_texts ha) ?_
    have := length_le_flatten a
    simp only [List.length_map, List.length_append] at this ⊢
    omega
  rw [e1, List.reverse_append, flatten_reverse]
  have e2 := stripAll_texts aft_free h2 (b.reverse.map fun c => (utf8 c).reverse)
    ((s ++ (b.map utf8).flatten).length) (by
      intro t ht
      obtain ⟨x, hx, rfl⟩ := List.mem_map.mp ht
      exact List.mem_map.mpr ⟨x, spaceChars_iff.mpr (hb x (by simpa using hx)), rfl⟩) (by
      have := length_le_flatten b
      simp only [List.length_map, List.length_append, List.length_reverse] at this ⊢
      omega)
  rw [show spaceChars.map (fun c => (utf8 c).reverse) = aft from rfl, e2, List.reverse_reverse]

/-- White space alone. -/
theorem trimSpace_blank {a : List Nat} (ha : ∀ x ∈ a, WhiteSpace x) :
    trimSpace ((a.map utf8).flatten) = [] := by
  have h1 : stripOne fore [] = none := by decide +kernel
  have e := stripAll_texts fore_free h1 (a.map utf8) ((a.map utf8).flatten).length (space_texts ha) (by
    have := length_le_flatten a
    simpa using this)
  rw [List.append_nil] at e
  unfold trimSpace
  simp only
  rw [show spaceChars.map utf8 = fore from rfl, e]
  rfl

theorem trimSpace_of_ends {s : Bytes} {c d : UInt8} {m : Bytes} (h : s = c :: m ++ [d])
    (hc : ∀ t ∈ spaceChars.map utf8, t.head? ≠ some c) (hd : d < 128 ∧ ¬ WhiteSpace d.toNat) :
    trimSpace s = s := by
  simpa using trimSpace_pad (a := []) (b := []) h (by simp) (by simp) hc hd

/-- C96, what exactly is left of a line: the line without white space of Unicode, in UTF-8, at both ends; what
is left neither begins nor ends with such a character. -/
theorem C96_line_trimmed_exact (s : Bytes) : ∃ a b : List Nat, (∀ c ∈ a ++ b, WhiteSpace c) ∧
    s = (a.map utf8).flatten ++ trimSpace s ++ (b.map utf8).flatten ∧
    ∀ c, WhiteSpace c → ¬ utf8 c <+: trimSpace s ∧ ¬ utf8 c <:+ trimSpace s := by
  have hf : [] ∉ fore := by unfold fore; decide +kernel
  have hr : [] ∉ aft := by unfold aft; decide +kernel
  obtain ⟨l, hl⟩ : ∃ l, l = stripAll fore s.length s := ⟨_, rfl⟩
  obtain ⟨w, hw, he, hn⟩ := stripAll_spec hf s.length s le_rfl
  rw [← hl] at he hn
  obtain ⟨v, hv, he', hn'⟩ := stripAll_spec hr l.length l.reverse (by simp)
  have ht : trimSpace s = (stripAll aft l.length l.reverse).reverse := by rw [hl]; rfl
  have hx : ∀ {w : List Bytes}, (∀ t ∈ w, t ∈ fore) → ∃ a : List Nat, (∀ c ∈ a, WhiteSpace c) ∧
      w = a.map utf8 := by
    intro w
    induction w with
    | nil => exact fun _ => ⟨[], by simp, rfl⟩
    | cons t w ih =>
      intro h
      obtain ⟨a, ha, rfl⟩ := ih fun u hu => h u (by simp [hu])
      obtain ⟨c, hc, rfl⟩ := List.mem_map.mp (h t (by simp))
      refine ⟨c :: a, ?_, rfl⟩
      intro x hx
      rcases List.mem_cons.mp hx with rfl | hx
      · exact spaceChars_iff.mp hc
      · exact ha x hx
  obtain ⟨a, ha, rfl⟩ := hx hw
  obtain ⟨b, hb, hvb⟩ := hx (w := (v.map List.reverse).reverse) (by
    intro t ht
    rw [List.mem_reverse] at ht
    obtain ⟨u, hu, rfl⟩ := List.mem_map.mp ht
    obtain ⟨c, hc, rfl⟩ := List.mem_map.mp (hv u hu)
    exact List.mem_map.mpr ⟨c, hc, by simp⟩)
  have el : l = trimSpace s ++ (b.map utf8).flatten := by
    have := congrArg List.reverse he'
    rw [List.reverse_reverse, List.reverse_append, ← ht, List.reverse_flatten, hvb] at this
    exact this
  refine ⟨a, b, ?_, ?_, ?_⟩
  · intro c hc
    rcases List.mem_append.mp hc with h | h
    · exact ha c h
    · exact hb c h
  · rw [List.append_assoc, ← el]; exact he
  · intro c hc
    constructor
    · intro hp
      refine hn (utf8 c) (List.mem_map.mpr ⟨c, spaceChars_iff.mpr hc, rfl⟩) ?_
      rw [el]
      exact hp.trans (List.prefix_append _ _)
    · intro hp
      refine hn' (utf8 c).reverse (List.mem_map.mpr ⟨c, spaceChars_iff.mpr hc, rfl⟩) ?_
      rw [ht] at hp
      simpa using List.reverse_prefix.mpr hp

theorem natDec_last (n : Nat) : ∃ m d, natDec n = m ++ [d] ∧ isDigit d = true := by
  have := natDec_ne_nil n
  refine ⟨(natDec n).dropLast, (natDec n).getLast this, (List.dropLast_append_getLast this).symm, ?_⟩
  exact natDec_digits n _ (List.getLast_mem this)

theorem isDigit_not_space {c : UInt8} (h : isDigit c = true) : c < 128 ∧ ¬ WhiteSpace c.toNat := by
  rw [← spaceChars_iff]
  revert c
  apply UInt8.forall_of_fin
  decide +kernel

/-- C96: for peers whose hosts have no line breaks, the file holds exactly one line per peer, which
is its URL, in their order; the URLs are read back as they were written. -/
theorem C96_lines_read_back {ps : List Peer} (hb : ∀ p ∈ ps, p.Built) (h : ∀ p ∈ ps, 10 ∉ p.host) :
    peersLines (peersText ps) = ps.map Peer.toURL := by
  have hurl : ∀ p ∈ ps, 10 ∉ p.toURL ∧ trimSpace p.toURL = p.toURL ∧ p.toURL ≠ [] := by
    intro p hp
    have h1 := h p hp
    obtain ⟨m, d, hd, hdd⟩ := natDec_last p.port.toNat
    have hdig : 10 ∉ natDec p.port.toNat := fun hm => by
      have := natDec_digits _ _ hm
      exact absurd this (by decide)
    obtain ⟨-, -, hco⟩ := Peer.built_iff.mp (hb p hp)
    cases hc : p.isClear
    · rw [hc] at hco
      refine ⟨by simp [Peer.toURL, hco, h1, hdig, ascii], ?_, by simp [Peer.toURL, hco, ascii]⟩
      refine trimSpace_of_ends (c := 111) (d := d)
        (m := ascii "nion://" ++ p.host ++ ascii ":" ++ m) ?_ (by decide +kernel) (isDigit_not_space hdd)
      simp [Peer.toURL, hco, hd, ascii]
    · rw [hc] at hco
      refine ⟨by simp [Peer.toURL, hco, hc, h1, hdig, ascii], ?_, by simp [Peer.toURL, hco, hc, ascii]⟩
      refine trimSpace_of_ends (c := 104) (d := d)
        (m := ascii "ttps://" ++ p.host ++ ascii ":" ++ m) ?_ (by decide +kernel) (isDigit_not_space hdd)
      simp [Peer.toURL, hco, hc, hd, ascii]
  unfold peersLines peersText
  by_cases hps : ps = []
  · subst hps
    simp [joinWith, splitOn, trimSpace, stripAll]
  · rw [splitOn_joinWith (by simpa using hps) (by
      intro u hu
      obtain ⟨p, hp, rfl⟩ := List.mem_map.mp hu
      exact (hurl p hp).1)]
    rw [List.map_map, List.filter_eq_self.mpr]
    · apply List.map_congr_left
      intro p hp
      exact (hurl p hp).2.1
    · intro u hu
      obtain ⟨p, hp, rfl⟩ := List.mem_map.mp hu
      simp [(hurl p hp).2.1, (hurl p hp).2.2]

/-- C96: white space around the URLs, of any kind that Unicode knows but line breaks, and blank lines in the
file make no difference. -/
theorem C96_blanks_ignored {ls : List (List Nat × Option Peer × List Nat)}
    (hp : ∀ l ∈ ls, ∀ p ∈ l.2.1, p.Built ∧ 10 ∉ p.host)
    (hb : ∀ l ∈ ls, ∀ c ∈ l.1 ++ l.2.2, WhiteSpace c ∧ c ≠ 10) :
    peersLines (joinWith 10 (ls.map fun l =>
      (l.1.map utf8).flatten ++ (l.2.1.map Peer.toURL).getD [] ++ (l.2.2.map utf8).flatten)) =
      (ls.filterMap fun l => l.2.1).map Peer.toURL := by
  have hline : ∀ p : Peer, p.Built → 10 ∉ p.host → 10 ∉ p.toURL ∧ p.toURL ≠ [] ∧
      ∀ a b : List Nat, (∀ x ∈ a, WhiteSpace x) → (∀ x ∈ b, WhiteSpace x) →
        trimSpace ((a.map utf8).flatten ++ p.toURL ++ (b.map utf8).flatten) = p.toURL := by
    intro p h1 h2
    obtain ⟨m, d, hd, hdd⟩ := natDec_last p.port.toNat
    have hdig : 10 ∉ natDec p.port.toNat := fun hm => by
      have := natDec_digits _ _ hm
      exact absurd this (by decide)
    obtain ⟨-, -, hco⟩ := Peer.built_iff.mp h1
    cases hc : p.isClear
    · rw [hc] at hco
      refine ⟨by simp [Peer.toURL, hco, h2, hdig, ascii], by simp [Peer.toURL, hco, ascii],
        fun a b ha hb => ?_⟩
      refine trimSpace_pad (c := 111) (d := d) (m := ascii "nion://" ++ p.host ++ ascii ":" ++ m)
        ?_ ha hb (by decide +kernel) (isDigit_not_space hdd)
      simp [Peer.toURL, hco, hd, ascii]
    · rw [hc] at hco
      refine ⟨by simp [Peer.toURL, hco, hc, h2, hdig, ascii], by simp [Peer.toURL, hco, hc, ascii],
        fun a b ha hb => ?_⟩
      refine trimSpace_pad (c := 104) (d := d) (m := ascii "ttps://" ++ p.host ++ ascii ":" ++ m)
        ?_ ha hb (by decide +kernel) (isDigit_not_space hdd)
      simp [Peer.toURL, hco, hc, hd, ascii]
  have hten : ∀ a : List Nat, (∀ c ∈ a, WhiteSpace c ∧ c ≠ 10) → 10 ∉ (a.map utf8).flatten := by
    intro a ha h
    obtain ⟨t, ht, h⟩ := List.mem_flatten.mp h
    obtain ⟨c, hc, rfl⟩ := List.mem_map.mp ht
    have : ∀ c ∈ spaceChars, c ≠ 10 → 10 ∉ utf8 c := by decide +kernel
    exact this c (spaceChars_iff.mpr (ha c hc).1) (ha c hc).2 h
  by_cases hls : ls = []
  · subst hls; rfl
  unfold peersLines
  rw [splitOn_joinWith (by simpa using hls) (by
    intro u hu
    obtain ⟨l, hl, rfl⟩ := List.mem_map.mp hu
    simp only [List.mem_append, not_or]
    refine ⟨⟨hten _ fun c hc => hb l hl c (by simp [hc]), ?_⟩, hten _ fun c hc => hb l hl c (by simp [hc])⟩
    cases hq : l.2.1 with
    | none => simp
    | some p => simpa using (hline p (hp l hl p hq).1 (hp l hl p hq).2).1)]
  rw [List.map_map]
  clear hls
  induction ls with
  | nil => rfl
  | cons l ls ih =>
    rw [List.map_cons, List.filter_cons, ih (fun x hx => hp x (by simp [hx])) fun x hx => hb x (by simp [hx]),
      List.filterMap_cons, Function.comp_apply]
    have h1 : ∀ x ∈ l.1, WhiteSpace x := fun x hx => (hb l (by simp) x (by simp [hx])).1
    have h2 : ∀ x ∈ l.2.2, WhiteSpace x := fun x hx => (hb l (by simp) x (by simp [hx])).1
    cases hq : l.2.1 with
    | none =>
      have := trimSpace_blank (a := l.1 ++ l.2.2) (by
        intro x hx
        rcases List.mem_append.mp hx with h | h
        · exact h1 x h
        · exact h2 x h)
      rw [List.map_append, List.flatten_append] at this
      simp [this]
    | some p =>
      obtain ⟨-, h3, h4⟩ := hline p (hp l (by simp) p hq).1 (hp l (by simp) p hq).2
      have h5 := h4 _ _ h1 h2
      simp only [Option.map_some, Option.getD_some, h5]
      simp [h3]

/-- C96: two lists of peers without line breaks in their hosts have the same file only if they are
the same list. -/
theorem C96_text_injective {ps qs : List Peer} (hp : ∀ p ∈ ps, p.Built ∧ 10 ∉ p.host)
    (hq : ∀ p ∈ qs, p.Built ∧ 10 ∉ p.host) (h : peersText ps = peersText qs) : ps = qs := by
  have e := congrArg peersLines h
  rw [C96_lines_read_back (fun p h => (hp p h).1) (fun p h => (hp p h).2),
    C96_lines_read_back (fun p h => (hq p h).1) (fun p h => (hq p h).2)] at e
  have hstr : ∀ p : Peer, p.Built → p.toURL = p.str := by
    intro p hb
    obtain ⟨-, -, hco⟩ := Peer.built_iff.mp hb
    unfold Peer.toURL Peer.str
    rw [hco]
    cases p.isClear <;> simp
  clear h
  induction ps generalizing qs with
  | nil => cases qs with
    | nil => rfl
    | cons q qs => simp at e
  | cons p ps ih =>
    cases qs with
    | nil => simp at e
    | cons q qs =>
      simp only [List.map_cons, List.cons.injEq] at e
      have hp1 := hp p (by simp)
      have hq1 := hq q (by simp)
      rw [hstr p hp1.1, hstr q hq1.1] at e
      rw [C63_text_injective hp1.1 hq1.1 e.1,
        ih (fun x hx => hp x (by simp [hx])) (fun x hx => hq x (by simp [hx])) e.2]

/-- C96 refuted: a line break in a host makes one peer look like two. -/
theorem C96_line_break_neg (a b : Bytes) (n m : UInt64) :
    peersText [⟨a ++ ascii ":" ++ natDec n.toNat ++ [10] ++ ascii "https://" ++ b, m, true, false⟩] =
      peersText [⟨a, n, true, false⟩, ⟨b, m, true, false⟩] := by
  simp [peersText, joinWith, Peer.toURL, ascii]

section examples

/-- C63, C95, C96: peers with a name, an onion service, an IPv6 address. -/
example : (Peer.mk (ascii "node.example.org") 8080 true false).Built ∧
    PlainHost (ascii "node.example.org") ∧
    (Peer.mk (ascii "expyuzz4wqqyqhjn.onion") 80 false true).Built ∧
    PlainHost (ascii "expyuzz4wqqyqhjn.onion") ∧ PlainHost (ascii "::1") ∧
    ¬ PlainHost (ascii "[::1]") ∧ ¬ PlainHost (ascii "a b") := by
  refine ⟨Peer.built_iff.mpr (by decide), ?_, Peer.built_iff.mpr (by decide), ?_, ?_, ?_, ?_⟩
  · unfold PlainHost; decide
  · unfold PlainHost; decide
  · unfold PlainHost; decide
  · unfold PlainHost; decide
  · unfold PlainHost; decide

/-- C96: a no-break space and an ideographic space around a URL, a line of an em space; a zero width space
is not white space. -/
example : peersLines (utf8 0xA0 ++ ascii "https://a:1" ++ utf8 0x3000 ++ [10] ++ utf8 0x2003) =
      [ascii "https://a:1"] ∧
    peersLines (utf8 0x200B) = [utf8 0x200B] ∧ WhiteSpace 0xA0 ∧ ¬ WhiteSpace 0x200B := by
  refine ⟨by decide +kernel, by decide +kernel, ?_, ?_⟩ <;> unfold WhiteSpace <;> decide

/-- C95: the address in brackets comes back without them. -/
example : toPeer (Peer.toURL ⟨ascii "[::1]", 80, true, false⟩) = .ok ⟨ascii "::1", 80, true, false⟩ := by
  decide +kernel

/-- C63: a repository that meets the contract, and an addition. -/
def toyPeersPort : PeersPort where
  S := List Peer
  retrieve s := .ok (some s)
  save _ ps := (.ok (), ps)

example : toyPeersPort.Lawful ∧ ∃ s', addPeer toyPeersPort ⟨id, fun _ => List.Perm.refl _⟩
    [⟨ascii "a", 1, true, false⟩] (ascii "b") 2 true = (.ok (), s') :=
  ⟨⟨fun _ => rfl, fun h => absurd rfl h⟩, _, rfl⟩

end examples

end Verif
