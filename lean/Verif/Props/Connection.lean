import Verif.Spec.Connection
import Verif.Props.Pool
import Verif.Props.Demo
import Verif.Props.Request
import Verif.Props.Form
import Verif.Props.Live

/-!
C82: every request to the server is answered as if it were the only one, however many connections there are and however the goroutines that handle them are
interleaved.
-/

namespace Kagome

open Spec

section
variable {ideo : Nat → Bool} {t : Tokenizer} {short : Bool} {viz : Graphviz} {fmt : Addr → Bytes}

theorem Client.Alone.split {α β : Type} {cl : Client α} {f : α → Client β} : ∀ {tr : Trace} {y : β}, (cl.then f).Alone ideo tr y →
    ∃ tr1 tr2 x, tr = tr1 ++ tr2 ∧ cl.Alone ideo tr1 x ∧ (f x).Alone ideo tr2 y := by
  induction cl with
  | done a => intro tr y h; exact ⟨[], tr, a, rfl, .done a, h⟩
  | call c k ih =>
    intro tr y h
    cases h with
    | gives hg h =>
      obtain ⟨tr1, tr2, x, rfl, h1, h2⟩ := ih _ h
      exact ⟨_ :: tr1, tr2, x, rfl, .gives hg h1, h2⟩
    | fails hf h =>
      obtain ⟨tr1, tr2, x, rfl, h1, h2⟩ := ih _ h
      exact ⟨_ :: tr1, tr2, x, rfl, .fails hf h1, h2⟩
  | during c visit k ih =>
    intro tr y h
    cases h with
    | during hv ho h =>
      obtain ⟨tr1, tr2, x, rfl, h1, h2⟩ := ih _ _ h
      exact ⟨_, tr2, x, by rw [← List.cons_append, ← List.append_assoc], .during hv ho h1, h2⟩

theorem dotText_map (fmt : Addr → Bytes) (f : Ptr → Addr) (g : Graph) : dotText fmt (g.map f) = dotText (fun q => fmt (f q)) g := by
  simp only [dotText, GraphOf.map, List.flatMap_map]
  rfl

theorem exists_apart (o : Option Graph) : ∃ f : Ptr → Addr, ∀ g, o = some g → KeepsApart f g := by
  cases o with
  | none => exact ⟨fun _ => 0, fun g h => by cases h⟩
  | some g =>
    refine ⟨fun p => (g.nodes.map (·.ptr)).idxOf p, fun g' h n hn n' hn' he => ?_⟩
    obtain rfl := Option.some.inj h
    have h1 : n.ptr ∈ g.nodes.map (·.ptr) := List.mem_map.mpr ⟨n, hn, rfl⟩
    have h2 : n'.ptr ∈ g.nodes.map (·.ptr) := List.mem_map.mpr ⟨n', hn', rfl⟩
    have e1 := List.getElem_idxOf (List.idxOf_lt_length_of_mem h1)
    have e2 := List.getElem_idxOf (List.idxOf_lt_length_of_mem h2)
    rw [← e1, ← e2]
    simp only [he]

theorem apiClient_alone {body : Bytes} {tr : Trace} {r : Option Response} (h : (apiClient t short body).Alone ideo tr r) :
    r = serveApi t ideo short body := by
  unfold apiClient at h
  unfold serveApi
  cases hd : decodeRequest body with
  | none => rw [hd] at h; cases h; rfl
  | some d =>
    rw [hd] at h
    cases d with
    | error e => cases h; rfl
    | ok req =>
      simp only [] at h
      simp only [serveTokenize]
      by_cases he : req.input = []
      · rw [if_pos he] at h ⊢; cases h; rfl
      · rw [if_neg he] at h ⊢
        cases h with
        | gives hg h =>
          cases h
          unfold Call.Gives at hg
          simp only [] at hg
          rw [hg.1]
        | fails hf h =>
          cases h
          rcases hf with hf | ⟨n, hf⟩ | ⟨_, n, hf⟩
          · unfold Call.Fails at hf
            simp only [] at hf
            rw [hf]
          · cases hf
          · cases hf

theorem graphClient_alone {sen : Bytes} {mode : Int} {tr : Trace} {r : Option (Except (Bytes × Bool) (List Record × Bytes))}
    (h : (graphClient t viz fmt sen mode).Alone ideo tr r) :
    ∃ f : Ptr → Addr, (∀ g, exportGraph t ideo sen mode = some g → KeepsApart f g) ∧ r = demoGraph t ideo viz (fun p => fmt (f p)) sen mode := by
  unfold graphClient at h
  unfold demoGraph
  by_cases hv : viz.installed = false
  · rw [if_pos hv] at h
    cases h
    obtain ⟨f, hf⟩ := exists_apart (exportGraph t ideo sen mode)
    exact ⟨f, hf, by rw [if_pos hv]⟩
  · rw [if_neg hv] at h
    simp only [if_neg hv]
    cases h with
    | gives hg h =>
      cases h
      unfold Call.Gives at hg
      obtain ⟨h1, _, g, f, h2, h3, h4⟩ := hg
      simp only [] at h1 h2
      refine ⟨f, fun g' hg' => ?_, ?_⟩
      · rw [h2] at hg'; obtain rfl := Option.some.inj hg'; exact h3
      · simp only [h1, h2, h4, dotText_map]
        rfl
    | fails hf h =>
      cases h
      obtain ⟨f, hf'⟩ := exists_apart (exportGraph t ideo sen mode)
      refine ⟨f, hf', ?_⟩
      rcases hf with hf | ⟨n, hf⟩ | ⟨_, n, hf⟩
      · unfold Call.Fails at hf
        simp only [] at hf
        rcases hf with hf | hf
        · rw [hf]
        · rw [hf]; cases analyzeGraph t ideo sen mode <;> rfl
      · cases hf
      · cases hf

theorem pageClient_alone {sen mode lattice : Bytes} {tr : Trace} {r : Option Bytes} (h : (pageClient t viz fmt sen mode lattice).Alone ideo tr r) :
    ∃ f : Ptr → Addr, (∀ g, exportGraph t ideo sen (demoMode mode) = some g → KeepsApart f g) ∧
      r = demoBody t ideo viz (fun p => fmt (f p)) sen mode lattice := by
  unfold pageClient at h
  unfold demoBody serveDemo
  by_cases hl : lattice = []
  · rw [if_pos hl] at h
    cases h
    obtain ⟨f, hf⟩ := exists_apart (exportGraph t ideo sen (demoMode mode))
    exact ⟨f, hf, by rw [if_pos hl]; rfl⟩
  · rw [if_neg hl] at h
    obtain ⟨_, _, x, _, h1, h2⟩ := h.split
    cases h2
    obtain ⟨f, hf, rfl⟩ := graphClient_alone h1
    refine ⟨f, hf, ?_⟩
    rw [if_neg hl, Option.map_map]
    rfl

theorem requestClient_alone {q : WebRequest} {tr : Trace} {r : Option WebAnswer} (h : (requestClient t short viz fmt q).Alone ideo tr r) :
    HandledAlone t ideo short viz fmt q r := by
  unfold requestClient at h
  unfold HandledAlone serveRequest
  cases hr : route q.path with
  | api =>
    rw [hr] at h
    obtain ⟨_, _, x, _, h1, h2⟩ := h.split
    cases h2
    obtain ⟨f, hf⟩ := exists_apart (exportGraph t ideo (formValue q.http (str "s")) (demoMode (formValue q.http (str "r"))))
    exact ⟨f, hf, by rw [apiClient_alone h1]⟩
  | demo =>
    rw [hr] at h
    obtain ⟨_, _, x, _, h1, h2⟩ := h.split
    cases h2
    obtain ⟨f, hf, rfl⟩ := pageClient_alone h1
    exact ⟨f, hf, rfl⟩

theorem connectionClient_alone {qs : List WebRequest} : ∀ {pre as : List WebAnswer} {tr : Trace},
    (connectionClient t short viz fmt qs pre).Alone ideo tr as → ∃ as', as = pre ++ as' ∧ AnsweredAll t ideo short viz fmt qs as' := by
  induction qs with
  | nil =>
    intro pre as tr h
    cases h
    exact ⟨[], by simp, .nil⟩
  | cons q qs ih =>
    intro pre as tr h
    obtain ⟨_, _, o, _, h1, h2⟩ := Client.Alone.split h
    have ha := requestClient_alone h1
    cases o with
    | none =>
      cases h2
      exact ⟨[], by simp, .closed ha⟩
    | some a =>
      obtain ⟨as', rfl, h3⟩ := ih h2
      exact ⟨a :: as', by simp, .cons ha h3⟩

variable {s : Sys (List WebAnswer)} {th : Thread (List WebAnswer)} {i : Nat} {tr : Trace} {qs : List WebRequest} {as : List WebAnswer}

/-- C82: in every state of every schedule of any number of connections (and of any other goroutines that use the library), the answers on a connection whose
requests have been handled are those that its requests get when each is handled alone. -/
theorem C82_answers (hr : Reachable ideo s) (hi : s.threads[i]? = some th) (hc : th.client = connectionClient t short viz fmt qs [])
    (hd : th.prog = .ret (tr, as)) : AnsweredAll t ideo short viz fmt qs as := by
  have h := C13_results hr hi hd
  rw [hc] at h
  obtain ⟨as', rfl, h1⟩ := connectionClient_alone h
  exact h1

theorem serveForm_total (wf : WellFormed t.dict t.userDict) (pt : PosTables t.dict t.userDict) (tab : FeatureTables t.dict) (ideo : Nat → Bool)
    (viz : Graphviz) (addr : Ptr → Bytes) (r : HttpRequest) : ∃ page, serveForm t ideo viz addr r = some page := by
  unfold serveForm demoBody
  by_cases hl : formValue r (str "lattice") = []
  · rw [hl, C49_form]; exact ⟨_, rfl⟩
  · have hm : ∃ m, DemoMode (formValue r (str "r")) m := by
      by_cases h1 : formValue r (str "r") = str "Search"
      · rw [h1]; exact ⟨_, .search⟩
      · by_cases h2 : formValue r (str "r") = str "Extended"
        · rw [h2]; exact ⟨_, .extended⟩
        · exact ⟨_, .other h1 h2⟩
    obtain ⟨m, hm⟩ := hm
    obtain ⟨_, _, _, _, _, h, _⟩ := C49_page wf pt tab ideo viz addr (sen := formValue r (str "s")) hl hm
    rw [h]; exact ⟨_, rfl⟩

theorem serveRequest_total (wf : WellFormed t.dict t.userDict) (pt : PosTables t.dict t.userDict) (tab : FeatureTables t.dict) (ideo : Nat → Bool)
    (short : Bool) (viz : Graphviz) (addr : Ptr → Bytes) (q : WebRequest) : ∃ a, serveRequest t ideo short viz addr q = some a := by
  unfold serveRequest
  cases route q.path with
  | api =>
    obtain ⟨r, hr⟩ := C66_total q.http.body
    obtain ⟨a, ha, _⟩ := C43_total wf tab ideo short (fun _ => r) q.http.body
    rw [serveApi_eq hr, ha]
    exact ⟨_, rfl⟩
  | demo =>
    obtain ⟨p, hp⟩ := serveForm_total wf pt tab ideo viz addr q.http
    exact ⟨_, by rw [hp]; rfl⟩

/-- C82: when the dictionaries are in order, every request has its answer. -/
theorem C82_every (wf : WellFormed t.dict t.userDict) (pt : PosTables t.dict t.userDict) (tab : FeatureTables t.dict) (hr : Reachable ideo s)
    (hi : s.threads[i]? = some th) (hc : th.client = connectionClient t short viz fmt qs []) (hd : th.prog = .ret (tr, as)) :
    as.length = qs.length ∧ ∀ (k : Nat) q a, qs[k]? = some q → as[k]? = some a → HandledAlone t ideo short viz fmt q (some a) := by
  have h := C82_answers hr hi hc hd
  clear hi hc hd
  induction h with
  | nil => exact ⟨rfl, fun k q a hk => by simp at hk⟩
  | cons h _ ih =>
    refine ⟨by simp [ih.1], fun k q a hk hk' => ?_⟩
    cases k with
    | zero =>
      obtain rfl := Option.some.inj hk
      obtain rfl := Option.some.inj hk'
      exact h
    | succ k => exact ih.2 k q a hk hk'
  | closed h =>
    obtain ⟨f, _, h⟩ := h
    obtain ⟨a, ha⟩ := serveRequest_total wf pt tab ideo short viz (fun p => fmt (f p)) _
    rw [ha] at h; cases h

/-- C82: an answer of the API depends on the body of its request alone, whatever else the server has done and is doing: the same body gets the same answer
on any connection of any process. -/
theorem C82_api (wf : WellFormed t.dict t.userDict) (pt : PosTables t.dict t.userDict) (tab : FeatureTables t.dict) (hr : Reachable ideo s)
    (hi : s.threads[i]? = some th) (hc : th.client = connectionClient t short viz fmt qs []) (hd : th.prog = .ret (tr, as)) {k : Nat} {q : WebRequest}
    (hk : qs[k]? = some q) (hp : q.path = str "/tokenize") : ∃ r, as[k]? = some (.api r) ∧ serveApi t ideo short q.http.body = some r := by
  obtain ⟨h1, h2⟩ := C82_every wf pt tab hr hi hc hd
  have hlt := (List.getElem?_eq_some_iff.mp hk).1
  have hk' : as[k]? = some as[k] := List.getElem?_eq_getElem (by omega)
  obtain ⟨f, _, h3⟩ := h2 k q _ hk hk'
  unfold serveRequest at h3
  rw [hp, (C65_routes).1] at h3
  obtain ⟨r, h4, h5⟩ := Option.map_eq_some_iff.mp h3
  exact ⟨r, by rw [hk', ← h5], h4⟩

/-- C82: no connection waits for another: from every state the handling of its requests can run to the end on its own, and gives the right answers. -/
theorem C82_progress (hr : Reachable ideo s) (hi : s.threads[i]? = some th) (hc : th.client = connectionClient t short viz fmt qs []) :
    ∃ s' th' tr as, Alone i s s' ∧ s'.threads[i]? = some th' ∧ th'.prog = .ret (tr, as) ∧ AnsweredAll t ideo short viz fmt qs as := by
  obtain ⟨s', th', tr, as, h1, h2, h3, h4⟩ := C13_progress hr hi
  rw [hc] at h4
  obtain ⟨as', rfl, h5⟩ := connectionClient_alone h4
  exact ⟨s', th', tr, _, h1, h2, h3, h5⟩

end

namespace Toy

/-- A Graphviz that answers with the text it got. -/
def echo : Graphviz := ⟨true, fun text => .ok (str "<svg" ++ text)⟩

/-- The requests of two connections; the second has requests to both handlers, the last one of them asking for a picture. -/
def first : List WebRequest := [⟨str "/tokenize", ⟨str "POST", false, str "{\"sentence\":\"も\"}", []⟩⟩]
def second : List WebRequest := [⟨str "/tokenize", ⟨str "POST", false, str "{\"sentence\":1}", []⟩⟩,
  ⟨str "/", ⟨str "GET", false, [], str "s=b&lattice=x"⟩⟩]

theorem second_length : second.length = 2 := rfl

/-- Three goroutines at their start, whatever they are to do. -/
theorem three_reachable {ρ : Type} (ideo : Nat → Bool) (a b c : Client ρ) :
    ∃ s : Sys ρ, Reachable ideo s ∧ ∃ x y z : Thread ρ, s.threads = [x, y, z] ∧ x.client = a ∧ y.client = b ∧ z.client = c :=
  ⟨_, .step (.step (.step .init (.spawn a)) (.spawn b)) (.spawn c), _, _, _, rfl, rfl, rfl, rfl⟩

/-- The hypotheses of C82_every: the second connection of three goroutines (the last of them is no connection), after any steps of all three, can get to its
end, and then has its two answers. -/
example (steps : List Nat) : ∃ s' th' tr as, Reachable Toy.ideo s' ∧ s'.threads[1]? = some th' ∧
    th'.client = connectionClient tokUser false echo (fun a => [UInt8.ofNat a]) second [] ∧ th'.prog = .ret (tr, as) ∧ as.length = 2 := by
  have hkeep : ∀ (l : List Nat) (s : Sys (List WebAnswer)) th, s.threads[1]? = some th → ∃ th', (s.follow l).threads[1]? = some th' ∧ th'.client = th.client := by
    intro l
    induction l with
    | nil => intro s th h; exact ⟨th, h, rfl⟩
    | cons i is ih =>
      intro s th h
      unfold Sys.follow
      split
      · exact ih s th h
      · rename_i th1 h1
        split
        · exact ih s th h
        · rename_i m' th2 h2
          by_cases he : i = 1
          · subst he
            rw [h] at h1
            obtain rfl := Option.some.inj h1
            have hc : th2.client = th.client := by cases Mem.next_step h2 <;> rfl
            have hlt := (List.getElem?_eq_some_iff.mp h).1
            obtain ⟨th', g1, g2⟩ := ih ⟨m', s.threads.set 1 th2⟩ th2 (by simp [hlt])
            exact ⟨th', g1, g2.trans hc⟩
          · exact ih ⟨m', s.threads.set i th2⟩ th (by simp [he, h])
  obtain ⟨s, hs, x, y, z, hxyz, _, hy, _⟩ := three_reachable Toy.ideo (connectionClient tokUser false echo (fun a => [UInt8.ofNat a]) first [])
    (connectionClient tokUser false echo (fun a => [UInt8.ofNat a]) second []) (.call ⟨.analyze, tok, str "すもも", 3⟩ fun _ => .done [])
  obtain ⟨th, h1, h2⟩ := hkeep steps s y (by rw [hxyz]; rfl)
  have hr := follow_reachable steps _ hs
  obtain ⟨s', th', g1, g2, g3, g4⟩ := run_to_end (i := 1) th.prog _ th h1 rfl
  have hr' := g1.reach hr
  have hc : th'.client = connectionClient tokUser false echo (fun a => [UInt8.ofNat a]) second [] := g3.trans (h2.trans hy)
  cases hp : th'.prog with
  | ret x => exact ⟨s', th', x.1, x.2, hr', g2, hc, hp, (C82_every wellFormed toy_posTables featureTables hr' g2 hc hp).1.trans second_length⟩
  | panic => exact (no_panic hr' g2 hp).elim
  | _ => rw [hp] at g4; exact g4.elim

end Toy

end Kagome
