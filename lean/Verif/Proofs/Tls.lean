import Verif.Spec.Tls

/-! # TLS transport: proofs -/

namespace WolfHsm.Tls

/-- What an end keeps is nothing or the packet that is being sent. -/
def Keeps (e : End) (p : Option (List UInt8)) : Prop := e.held = none ∨ ∃ d, e.held = some d ∧ p = some d ∧ e.prev = 0

theorem push_past {frag : Nat} {d : List UInt8} (n : Nat) : push frag d n d.length = ([], none, d.length) := by
  cases n <;> simp [push]

theorem write_one {frag : Nat} {admits : Bool} {e : End} {h : Hs} {io : Out} {d : List UInt8} {p : Option (List UInt8)}
    (hk : Keeps e p) (hp : p = none ∨ p = some d) (h0 : 0 < d.length) (h1 : d.length ≤ frag) :
    ((e.write frag admits h io d).1 = .ok ∧ (e.write frag admits h io d).2.2 = [d] ∧ (e.write frag admits h io d).2.1.held = none) ∨
    ((e.write frag admits h io d).1 = .notready ∧ (e.write frag admits h io d).2.2 = [] ∧
      Keeps (e.write frag admits h io d).2.1 (some d)) ∨
    ((e.write frag admits h io d).1 = .aborted ∧ (e.write frag admits h io d).2.2 = [] ∧
      Keeps (e.write frag admits h io d).2.1 p) := by
  have hk' : Keeps e (some d) := by
    rcases hk with h | ⟨d', h, e1, e2⟩
    · exact .inl h
    · rcases hp with e3 | e3 <;> rw [e3] at e1
      · cases e1
      · exact .inr ⟨d', h, e1, e2⟩
  obtain ⟨up, dead, held, prev⟩ := e
  unfold End.write
  cases dead
  · dsimp only
    rw [if_neg (by decide)]
    cases handshake admits up h
    · exact .inr (.inl ⟨rfl, rfl, hk'⟩)
    · exact .inr (.inr ⟨rfl, rfl, hk⟩)
    · exact .inr (.inr ⟨rfl, rfl, hk⟩)
    · cases io with
      | fatal => exact .inr (.inr ⟨rfl, rfl, hk⟩)
      | takes n =>
        cases held with
        | none =>
          dsimp only
          unfold End.records
          cases n with
          | zero =>
            have hp : push frag d 0 0 = ([], some d, 0) := by
              simp [push, h0, List.take_of_length_le h1]
            rw [hp]
            exact .inr (.inl ⟨rfl, rfl, .inr ⟨d, rfl, rfl, rfl⟩⟩)
          | succ n =>
            have hp : push frag d (n + 1) 0 = ([d], none, d.length) := by
              simp [push, h0, List.take_of_length_le h1, push_past]
            rw [hp]
            exact .inl ⟨rfl, rfl, rfl⟩
        | some m =>
          have hm : m = d ∧ prev = 0 := by
            rcases hk' with h | ⟨d', h, e1, e2⟩
            · cases h
            · cases h; cases e1; exact ⟨rfl, e2⟩
          obtain ⟨rfl, rfl⟩ := hm
          cases n with
          | zero => exact .inr (.inl ⟨rfl, rfl, hk'⟩)
          | succ n =>
            dsimp only
            rw [if_neg (by omega)]
            unfold End.records
            rw [Nat.zero_add, push_past]
            exact .inl ⟨rfl, rfl, rfl⟩
  · exact .inr (.inr ⟨rfl, rfl, hk⟩)

theorem write_goes {frag : Nat} {admits : Bool} {e : End} {h : Hs} {n : Nat} {d : List UInt8} {p : Option (List UInt8)}
    (hk : Keeps e p) (hp : p = none ∨ p = some d) (h0 : 0 < d.length) (h1 : d.length ≤ frag) (hd : e.dead = false)
    (hu : e.up = true) : (e.write frag admits h (.takes (n + 1)) d).1 = .ok := by
  obtain ⟨up, dead, held, prev⟩ := e
  dsimp only at hd hu
  subst hd hu
  unfold End.write
  rcases hk with hh | ⟨d', hh, e1, e2⟩
  · dsimp only at hh
    subst hh
    have hp : push frag d (n + 1) 0 = ([d], none, d.length) := by
      simp [push, h0, List.take_of_length_le h1, push_past]
    simp [handshake, End.records, hp]
  · dsimp only at hh e2
    subst hh e2
    have : d' = d := by
      rcases hp with e3 | e3 <;> rw [e3] at e1 <;> cases e1
      rfl
    subst this
    simp [handshake, End.records, push_past]

theorem read_one {max : Nat} {admits : Bool} {e : End} {h : Hs} {io : In} {w : List (List UInt8)} {p : Option (List UInt8)}
    (hk : Keeps e p) (hw : ∀ d ∈ w, d.length ≤ max) :
    Keeps (e.read max admits h io w).2.1 p ∧
    (((e.read max admits h io w).1 = .ok ∧ ∃ d ds, w = d :: ds ∧ (e.read max admits h io w).2.2 = (ds, some d)) ∨
     ((e.read max admits h io w).1 ≠ .ok ∧ (e.read max admits h io w).2.2 = (w, none))) := by
  obtain ⟨up, dead, held, prev⟩ := e
  unfold End.read
  cases dead
  · dsimp only
    rw [if_neg (by decide)]
    cases handshake admits up h
    · exact ⟨hk, .inr ⟨by simp, rfl⟩⟩
    · exact ⟨hk, .inr ⟨by simp, rfl⟩⟩
    · exact ⟨hk, .inr ⟨by simp, rfl⟩⟩
    · cases io
      · exact ⟨hk, .inr ⟨by simp, rfl⟩⟩
      · exact ⟨hk, .inr ⟨by simp, rfl⟩⟩
      · cases w with
        | nil => exact ⟨hk, .inr ⟨by simp, rfl⟩⟩
        | cons d ds =>
          have := hw d (List.mem_cons_self ..)
          refine ⟨hk, .inl ⟨rfl, d, ds, rfl, ?_⟩⟩
          dsimp only
          rw [if_neg (by omega), List.take_of_length_le this]
  · exact ⟨hk, .inr ⟨by simp, rfl⟩⟩

/-- What is under way is what the observer has seen being sent. -/
structure Inv (k : Cfg) (v : View) (y : Sys) : Prop where
  up : y.up = v.requests
  down : y.down = v.responses
  fitU : ∀ d ∈ v.requests, d.length ≤ k.max
  fitD : ∀ d ∈ v.responses, d.length ≤ k.max
  c : Keeps y.c.tls v.request
  s : Keeps y.s.tls v.response

theorem inv_start (k : Cfg) : Inv k .start .start :=
  ⟨rfl, rfl, by simp [View.start], by simp [View.start], .inl rfl, .inl rfl⟩

theorem keeps_lost {s : Server} {b : Bool} {p : Option (List UInt8)} (h : Keeps s.tls p) : Keeps (s.lost b).tls p := by
  unfold Server.lost
  split <;> exact h

theorem send_request {k : Cfg} (hf : k.max ≤ k.frag) {c : Client} {e : Tcp.Conn} {h : Hs} {io : Out} {d : List UInt8}
    {p : Option (List UInt8)} (hk : Keeps c.tls p) (hp : p = none ∨ p = some d) (hd : d.length ≤ k.max) :
    ((sendRequest k c e h io d).1 = .ok ∧ (sendRequest k c e h io d).2.2 = [d] ∧
      (sendRequest k c e h io d).2.1.tls.held = none) ∨
    ((sendRequest k c e h io d).1 = .notready ∧ (sendRequest k c e h io d).2.2 = [] ∧
      Keeps (sendRequest k c e h io d).2.1.tls (some d)) ∨
    ((sendRequest k c e h io d).1 ≠ .ok ∧ (sendRequest k c e h io d).1 ≠ .notready ∧ (sendRequest k c e h io d).2.2 = [] ∧
      Keeps (sendRequest k c e h io d).2.1.tls p) := by
  have hk' : Keeps c.tls (some d) := by
    rcases hk with h | ⟨d', h, e1, e2⟩
    · exact .inl h
    · rcases hp with e3 | e3 <;> rw [e3] at e1
      · cases e1
      · exact .inr ⟨d', h, e1, e2⟩
  unfold sendRequest
  split
  · exact .inr (.inr ⟨by simp, by simp, rfl, hk⟩)
  · rename_i h0
    have h0 : 0 < d.length := by omega
    split
    · rcases write_one (frag := k.frag) (admits := k.clientAdmits) (h := h) (io := io) hk hp h0 (by omega) with
        ⟨a, b, c⟩ | ⟨a, b, c⟩ | ⟨a, b, c⟩
      · exact .inl ⟨a, b, c⟩
      · exact .inr (.inl ⟨a, b, c⟩)
      · exact .inr (.inr ⟨by rw [a]; decide, by rw [a]; decide, b, c⟩)
    · dsimp only
      split
      · exact .inr (.inl ⟨rfl, rfl, hk'⟩)
      · split
        · exact .inr (.inr ⟨by simp, by simp, rfl, hk⟩)
        · split
          · exact .inr (.inl ⟨rfl, rfl, hk'⟩)
          · exact .inr (.inl ⟨rfl, rfl, .inl rfl⟩)
          · exact .inr (.inr ⟨by simp, by simp, rfl, hk⟩)
          · have hk2 : Keeps { c.tls with up := true } p := hk
            rcases write_one (frag := k.frag) (admits := k.clientAdmits) (h := h) (io := io) hk2 hp h0 (by omega) with
              ⟨a, b, c⟩ | ⟨a, b, c⟩ | ⟨a, b, c⟩
            · exact .inl ⟨a, b, c⟩
            · exact .inr (.inl ⟨a, b, c⟩)
            · exact .inr (.inr ⟨by rw [a]; decide, by rw [a]; decide, b, c⟩)

theorem send_response {k : Cfg} (hf : k.max ≤ k.frag) {s : Server} {h : Hs} {io : Out} {d : List UInt8}
    {p : Option (List UInt8)} (hk : Keeps s.tls p) (hp : p = none ∨ p = some d) (hd : d.length ≤ k.max) :
    ((sendResponse k s h io d).1 = .ok ∧ (sendResponse k s h io d).2.2 = [d] ∧
      (sendResponse k s h io d).2.1.tls.held = none) ∨
    ((sendResponse k s h io d).1 = .notready ∧ (sendResponse k s h io d).2.2 = [] ∧
      Keeps (sendResponse k s h io d).2.1.tls (some d)) ∨
    ((sendResponse k s h io d).1 ≠ .ok ∧ (sendResponse k s h io d).1 ≠ .notready ∧ (sendResponse k s h io d).2.2 = [] ∧
      Keeps (sendResponse k s h io d).2.1.tls p) := by
  have hk' : Keeps s.tls (some d) := by
    rcases hk with h | ⟨d', h, e1, e2⟩
    · exact .inl h
    · rcases hp with e3 | e3 <;> rw [e3] at e1
      · cases e1
      · exact .inr ⟨d', h, e1, e2⟩
  unfold sendResponse
  split
  · exact .inr (.inr ⟨by simp, by simp, rfl, hk⟩)
  · rename_i h0
    have h0 : 0 < d.length := by omega
    split
    · exact .inr (.inl ⟨rfl, rfl, hk'⟩)
    · rcases write_one (frag := k.frag) (admits := k.serverAdmits) (h := h) (io := io) hk hp h0 (by omega) with
        ⟨a, b, c⟩ | ⟨a, b, c⟩ | ⟨a, b, c⟩
      · exact .inl ⟨a, b, c⟩
      · exact .inr (.inl ⟨a, b, c⟩)
      · exact .inr (.inr ⟨by rw [a]; decide, by rw [a]; decide, b, c⟩)

theorem recv_response {k : Cfg} {c : Client} {h : Hs} {io : In} {w : List (List UInt8)} {p : Option (List UInt8)}
    (hk : Keeps c.tls p) (hw : ∀ d ∈ w, d.length ≤ k.max) :
    Keeps (recvResponse k c h io w).2.1.tls p ∧
    (((recvResponse k c h io w).1 = .ok ∧ ∃ d ds, w = d :: ds ∧ (recvResponse k c h io w).2.2 = (ds, some d)) ∨
     ((recvResponse k c h io w).1 ≠ .ok ∧ (recvResponse k c h io w).2.2 = (w, none))) := by
  unfold recvResponse
  split
  · exact ⟨hk, .inr ⟨by simp, rfl⟩⟩
  · exact read_one hk hw

theorem recv_request {k : Cfg} {s : Server} {a : Tcp.Acc} {h : Hs} {io : In} {w : List (List UInt8)} {p : Option (List UInt8)}
    (hk : Keeps s.tls p) (hw : ∀ d ∈ w, d.length ≤ k.max) :
    Keeps (recvRequest k s a h io w).2.1.tls p ∧
    (((recvRequest k s a h io w).1 = .ok ∧ ∃ d ds, w = d :: ds ∧ (recvRequest k s a h io w).2.2 = (ds, some d)) ∨
     ((recvRequest k s a h io w).1 ≠ .ok ∧ (recvRequest k s a h io w).2.2 = (w, none))) := by
  unfold recvRequest
  split
  · exact read_one hk hw
  · cases a
    · exact ⟨hk, .inr ⟨by simp, rfl⟩⟩
    · exact ⟨hk, .inr ⟨by simp, rfl⟩⟩
    · dsimp only
      split
      · exact ⟨.inl rfl, .inr ⟨by simp, rfl⟩⟩
      · exact ⟨.inl rfl, .inr ⟨by simp, rfl⟩⟩
      · exact ⟨.inl rfl, .inr ⟨by simp, rfl⟩⟩
      · exact read_one (.inl rfl) hw

theorem inv_step {k : Cfg} (hf : k.max ≤ k.frag) {v : View} {y : Sys} (hi : Inv k v y) (o : Op) (hp : v.Polite k.max o) :
    ∃ v', v.next o (step k y o).2 = some v' ∧ Inv k v' (step k y o).1 := by
  obtain ⟨h1, h2, h3, h4, h5, h6⟩ := hi
  cases o with
  | cSend e h io d =>
    obtain ⟨hd, hq⟩ := hp
    simp only [step]
    rcases send_request hf (e := e) (h := h) (io := io) h5 hq hd with ⟨a, b, c⟩ | ⟨a, b, c⟩ | ⟨a, a', b, c⟩
    · refine ⟨{ v with requests := v.requests ++ [d], request := none }, by rw [a]; rfl, ⟨by simp only [b, h1], h2, ?_, h4, .inl c, keeps_lost h6⟩⟩
      intro x hx
      rcases List.mem_append.mp hx with hx | hx
      · exact h3 x hx
      · rw [List.mem_singleton.mp hx]; exact hd
    · exact ⟨{ v with request := some d }, by rw [a]; rfl, ⟨by simp only [b, h1, List.append_nil], h2, h3, h4, c, keeps_lost h6⟩⟩
    · refine ⟨v, ?_, ⟨by simp only [b, h1, List.append_nil], h2, h3, h4, c, keeps_lost h6⟩⟩
      generalize (sendRequest k y.c e h io d).1 = rc at a a'
      cases rc <;> first | rfl | exact absurd rfl a | exact absurd rfl a'
  | sSend h io d =>
    obtain ⟨hd, hq⟩ := hp
    simp only [step]
    rcases send_response hf (h := h) (io := io) h6 hq hd with ⟨a, b, c⟩ | ⟨a, b, c⟩ | ⟨a, a', b, c⟩
    · refine ⟨{ v with responses := v.responses ++ [d], response := none }, by rw [a]; rfl, ⟨h1, by simp only [b, h2], h3, ?_, h5, .inl c⟩⟩
      intro x hx
      rcases List.mem_append.mp hx with hx | hx
      · exact h4 x hx
      · rw [List.mem_singleton.mp hx]; exact hd
    · exact ⟨{ v with response := some d }, by rw [a]; rfl, ⟨h1, by simp only [b, h2, List.append_nil], h3, h4, h5, c⟩⟩
    · refine ⟨v, ?_, ⟨h1, by simp only [b, h2, List.append_nil], h3, h4, h5, c⟩⟩
      generalize (sendResponse k y.s h io d).1 = rc at a a'
      cases rc <;> first | rfl | exact absurd rfl a | exact absurd rfl a'
  | cRecv h io =>
    simp only [step]
    obtain ⟨hk, hr⟩ := recv_response (k := k) (h := h) (io := io) h5 (w := y.down) (by rw [h2]; exact h4)
    rcases hr with ⟨a, d, ds, e1, e2⟩ | ⟨a, e2⟩
    · rw [h2] at e1
      refine ⟨{ v with responses := ds }, ?_, ⟨h1, by rw [e2], h3, ?_, hk, h6⟩⟩
      · rw [a, e2]
        simp only [View.next, e1, if_true]
      · intro x hx
        exact h4 x (by rw [e1]; exact List.mem_cons_of_mem _ hx)
    · refine ⟨v, ?_, ⟨h1, by rw [e2]; exact h2, h3, h4, hk, h6⟩⟩
      rw [e2]
      generalize (recvResponse k y.c h io y.down).1 = rc at a
      cases rc <;> first | rfl | exact absurd rfl a
  | sRecv a h io =>
    simp only [step]
    obtain ⟨hk, hr⟩ := recv_request (k := k) (a := a) (h := h) (io := io) h6 (w := y.up) (by rw [h1]; exact h3)
    rcases hr with ⟨b, d, ds, e1, e2⟩ | ⟨b, e2⟩
    · rw [h1] at e1
      refine ⟨{ v with requests := ds }, ?_, ⟨by rw [e2], h2, ?_, h4, h5, hk⟩⟩
      · rw [b, e2]
        simp only [View.next, e1, if_true]
      · intro x hx
        exact h3 x (by rw [e1]; exact List.mem_cons_of_mem _ hx)
    · refine ⟨v, ?_, ⟨by rw [e2]; exact h1, h2, h3, h4, h5, hk⟩⟩
      rw [e2]
      generalize (recvRequest k y.s a h io y.up).1 = rc at b
      cases rc <;> first | rfl | exact absurd rfl b

theorem inv_run {k : Cfg} (hf : k.max ≤ k.frag) (os : List Op) : ∀ {v : View} {y : Sys}, Inv k v y →
    v.AllPolite k.max (run k y os).2 → ∃ v', v.after (run k y os).2 = some v' ∧ Inv k v' (run k y os).1 := by
  induction os with
  | nil => intro v y hi _; exact ⟨v, rfl, hi⟩
  | cons o os ih =>
    intro v y hi hp
    simp only [run, View.AllPolite] at hp ⊢
    obtain ⟨v', e, hi'⟩ := inv_step hf hi o hp.1
    have hp' := hp.2
    rw [e] at hp'
    obtain ⟨v'', e2, hi''⟩ := ih hi' hp'
    exact ⟨v'', by simp only [View.after, e, Option.bind_some, e2], hi''⟩

/-! ## Whom the ends talk to -/

/-- A handshake is finished only with a peer that is admitted, and nothing passes before. -/
structure Shaken (k : Cfg) (y : Sys) : Prop where
  c : k.clientAdmits = false → y.c.tls.up = false ∧ y.c.connected = false ∧ y.up = []
  s : k.serverAdmits = false → y.s.tls.up = false ∧ y.down = []

theorem handshake_refused {h : Hs} : handshake false false h ≠ .done := by
  cases h <;> decide

theorem write_refused {frag : Nat} {e : End} {h : Hs} {io : Out} {d : List UInt8} (hu : e.up = false) :
    (e.write frag false h io d).1 ≠ .ok ∧ (e.write frag false h io d).2.1.up = false ∧ (e.write frag false h io d).2.2 = [] := by
  unfold End.write
  rw [hu]
  split
  · exact ⟨by simp, by first | rfl | exact hu, rfl⟩
  · have := handshake_refused (h := h)
    split
    · exact ⟨by simp, by first | rfl | exact hu, rfl⟩
    · exact ⟨by simp, by first | rfl | exact hu, rfl⟩
    · exact ⟨by simp, by first | rfl | exact hu, rfl⟩
    · rename_i hh; exact absurd hh this

theorem read_refused {max : Nat} {e : End} {h : Hs} {io : In} {w : List (List UInt8)} (hu : e.up = false) :
    (e.read max false h io w).1 ≠ .ok ∧ (e.read max false h io w).2.1.up = false := by
  unfold End.read
  rw [hu]
  split
  · exact ⟨by simp, by first | rfl | exact hu⟩
  · have := handshake_refused (h := h)
    split
    · exact ⟨by simp, by first | rfl | exact hu⟩
    · exact ⟨by simp, by first | rfl | exact hu⟩
    · exact ⟨by simp, by first | rfl | exact hu⟩
    · rename_i hh; exact absurd hh this

theorem read_shorter {max : Nat} {a : Bool} {e : End} {h : Hs} {io : In} :
    (e.read max a h io []).2.2 = ([], none) ∧ (e.read max a h io []).1 ≠ .ok := by
  unfold End.read
  split
  · exact ⟨rfl, by simp⟩
  · split
    · exact ⟨rfl, by simp⟩
    · exact ⟨rfl, by simp⟩
    · exact ⟨rfl, by simp⟩
    · cases io <;> exact ⟨rfl, by simp⟩

theorem request_refused {k : Cfg} (hk : k.clientAdmits = false) {c : Client} (hu : c.tls.up = false) (hc : c.connected = false)
    {e : Tcp.Conn} {h : Hs} {io : Out} {d : List UInt8} :
    (sendRequest k c e h io d).1 ≠ .ok ∧ (sendRequest k c e h io d).2.1.tls.up = false ∧
    (sendRequest k c e h io d).2.1.connected = false ∧ (sendRequest k c e h io d).2.2 = [] := by
  unfold sendRequest
  rw [hc]
  split
  · exact ⟨by simp, by first | rfl | exact hu, by first | rfl | exact hc, rfl⟩
  · rw [if_neg (by decide)]
    dsimp only
    split
    · exact ⟨by simp, by first | rfl | exact hu, by first | rfl | exact hc, rfl⟩
    · split
      · exact ⟨by simp, by first | rfl | exact hu, by first | rfl | exact hc, rfl⟩
      · rw [hk, hu]
        have := handshake_refused (h := h)
        split
        · exact ⟨by simp, by first | rfl | exact hu, by first | rfl | exact hc, rfl⟩
        · exact ⟨by simp, rfl, rfl, rfl⟩
        · exact ⟨by simp, by first | rfl | exact hu, by first | rfl | exact hc, rfl⟩
        · rename_i hh; exact absurd hh this

theorem accept_refused {k : Cfg} (hk : k.serverAdmits = false) {s : Server} (hu : s.tls.up = false) {a : Tcp.Acc} {h : Hs}
    {io : In} {w : List (List UInt8)} :
    (recvRequest k s a h io w).1 ≠ .ok ∧ (recvRequest k s a h io w).2.1.tls.up = false := by
  unfold recvRequest
  split
  · unfold readRequest; rw [hk]; exact read_refused hu
  · cases a
    · exact ⟨by simp, by first | rfl | exact hu⟩
    · exact ⟨by simp, by first | rfl | exact hu⟩
    · rw [hk]
      have := handshake_refused (h := h)
      dsimp only
      split
      · exact ⟨by simp, rfl⟩
      · exact ⟨by simp, rfl⟩
      · exact ⟨by simp, rfl⟩
      · rename_i hh; exact absurd hh this

theorem up_lost {s : Server} {b : Bool} : (s.lost b).tls.up = s.tls.up := by
  unfold Server.lost
  split <;> rfl

theorem recv_nil {k : Cfg} {s : Server} {a : Tcp.Acc} {h : Hs} {io : In} :
    (recvRequest k s a h io []).2.2 = ([], none) ∧ (recvRequest k s a h io []).1 ≠ .ok := by
  unfold recvRequest
  split
  · exact read_shorter
  · cases a
    · exact ⟨rfl, by simp⟩
    · exact ⟨rfl, by simp⟩
    · dsimp only
      split
      · exact ⟨rfl, by simp⟩
      · exact ⟨rfl, by simp⟩
      · exact ⟨rfl, by simp⟩
      · exact read_shorter

theorem resp_nil {k : Cfg} {c : Client} {h : Hs} {io : In} : (recvResponse k c h io []).2.2 = ([], none) := by
  unfold recvResponse
  split
  · rfl
  · exact read_shorter.1

theorem shaken_step {k : Cfg} {y : Sys} (hi : Shaken k y) (o : Op) : Shaken k (step k y o).1 := by
  cases o with
  | cSend e h io d =>
    refine ⟨fun hk => ?_, fun hk => ⟨by simp only [step]; rw [up_lost]; exact (hi.s hk).1, (hi.s hk).2⟩⟩
    obtain ⟨a, b, c⟩ := hi.c hk
    obtain ⟨-, e1, e2, e3⟩ := request_refused hk a b (e := e) (h := h) (io := io) (d := d)
    exact ⟨e1, e2, by simp only [step, e3, c, List.append_nil]⟩
  | cRecv h io =>
    refine ⟨fun hk => ?_, fun hk => ?_⟩
    · obtain ⟨a, b, c⟩ := hi.c hk
      refine ⟨?_, ?_, c⟩
      · simp only [step]; unfold recvResponse
        split
        · exact a
        · rw [hk]; exact (read_refused a).2
      · simp only [step]; unfold recvResponse
        split <;> exact b
    · obtain ⟨a, b⟩ := hi.s hk
      refine ⟨a, ?_⟩
      simp only [step, b, resp_nil]
  | sRecv a h io =>
    refine ⟨fun hk => ?_, fun hk => ?_⟩
    · obtain ⟨a1, b, c⟩ := hi.c hk
      refine ⟨a1, b, ?_⟩
      simp only [step, c, recv_nil.1]
    · obtain ⟨a1, b⟩ := hi.s hk
      exact ⟨(accept_refused hk a1).2, b⟩
  | sSend h io d =>
    refine ⟨hi.c, fun hk => ?_⟩
    obtain ⟨a, b⟩ := hi.s hk
    simp only [step]; unfold sendResponse
    split
    · exact ⟨a, by simp [b]⟩
    · split
      · exact ⟨a, by simp [b]⟩
      · rw [hk]
        obtain ⟨-, e1, e2⟩ := write_refused (frag := k.frag) (h := h) (io := io) (d := d) a
        exact ⟨e1, by dsimp only; rw [e2, b]; rfl⟩

/-- Nothing is received over a session with a peer that is not admitted. -/
theorem shaken_quiet {k : Cfg} {y : Sys} (hi : Shaken k y) :
    (k.serverAdmits = false → ∀ a h io, (step k y (.sRecv a h io)).2.1 ≠ .ok) ∧
    (k.clientAdmits = false → (∀ e h io d, (step k y (.cSend e h io d)).2.1 ≠ .ok) ∧
      ∀ a h io, (step k y (.sRecv a h io)).2.1 ≠ .ok) := by
  refine ⟨fun hk a h io => (accept_refused hk (hi.s hk).1).1, fun hk => ⟨fun e h io d => ?_, fun a h io => ?_⟩⟩
  · exact (request_refused hk (hi.c hk).1 (hi.c hk).2.1).1
  · simp only [step, (hi.c hk).2.2]
    exact recv_nil.2

theorem run_mem {k : Cfg} {P : Sys → Prop} (hs : ∀ y o, P y → P (step k y o).1) (os : List Op) : ∀ {y : Sys}, P y →
    P (run k y os).1 ∧ ∀ r ∈ (run k y os).2, ∃ y', P y' ∧ (step k y' r.1).2 = r.2 := by
  induction os with
  | nil => intro y h; exact ⟨h, by simp [run]⟩
  | cons o os ih =>
    intro y h
    obtain ⟨a, b⟩ := ih (hs y o h)
    refine ⟨a, ?_⟩
    intro r hr
    simp only [run, List.mem_cons] at hr
    rcases hr with rfl | hr
    · exact ⟨y, h, rfl⟩
    · exact b r hr

end WolfHsm.Tls
