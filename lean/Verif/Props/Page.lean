import Verif.Model.Page
import Verif.Props.Highlight

/-!
# C91: the lists of the map page
-/

namespace NTM

open Spec

/-- A list of entries offers exactly the objects with `P`: every entry, once selected, leads to an
object with `P`, and every object with `P` has an entry that leads to it. -/
def Spec.Offers {α : Type} (leads : α → ℕ → Prop) (P : ℕ → Prop) (l : List α) : Prop :=
  (∀ c ∈ l, ∃ o, leads c o ∧ P o) ∧ ∀ o, P o → ∃ c ∈ l, leads c o

/-- selecting the entry finds demand `d` (`pyNTM/weathermap.py:1603-1606`) -/
def Spec.LeadsToDmd (s : State) (c : Choice) (d : ℕ) : Prop :=
  s.getDemand c.source c.dest c.name = .ok d

/-- selecting the entry finds LSP `l` (`pyNTM/weathermap.py:1463-1466`) -/
def Spec.LeadsToLsp (s : State) (c : Choice) (l : ℕ) : Prop :=
  s.getLsp c.source c.dest c.name = .ok l

/-- selecting the entry shows the node, name, other end, circuit id, utilization and cost of
interface `i`, and the lists for the selected interface look up `i`
(`pyNTM/weathermap.py:1628-1630,1670-1672`) -/
def Spec.LeadsToIfc (s : State) (c : IfcChoice) (i : ℕ) : Prop :=
  ∃ sh, selectEntry s c = .ok sh ∧ sh.source = s.tail i ∧ sh.name = (s.ifc i).name ∧
    sh.dest = s.head i ∧ sh.cktId = (s.ifc i).cktId ∧ sh.utilization = s.utilization i ∧
    sh.cost = (s.ifc i).cost ∧ s.getIfc sh.name sh.source = .ok i

theorem getIfc_key {s : State} (hg : ∀ i ∈ s.ifs, (s.ifc i).node ∈ s.nodes) (hk : UniqueKeys s)
    {i : ℕ} (hi : i ∈ s.ifs) : s.getIfc (s.ifc i).name (s.tail i) = .ok i := by
  have hnode : s.getNode (s.tail i) = .ok (s.ifc i).node := by
    unfold State.getNode
    cases hf : s.nodes.find? fun m => (s.node m).name = s.tail i with
    | none =>
      have := List.find?_eq_none.1 hf _ (hg i hi)
      exact absurd (by simp [State.tail]) this
    | some m =>
      have h1 := List.mem_of_find?_eq_some hf
      have h2 := List.find?_some hf
      rw [decide_eq_true_eq] at h2
      simp only []
      rw [List.inj_on_of_nodup_map hk.nodes h1 (hg i hi) h2]
  unfold State.getIfc
  have hany : (s.ifs.any fun j => s.ifcKey j = ((s.ifc i).name, s.tail i)) = true := by
    rw [List.any_eq_true]
    exact ⟨i, hi, by simp [State.ifcKey]⟩
  rw [if_pos hany, hnode]
  simp only []
  cases hf : (s.ifcsOn (s.node (s.ifc i).node).name).find? fun j => (s.ifc j).name = (s.ifc i).name with
  | none =>
    have := List.find?_eq_none.1 hf i (by simp [State.ifcsOn, hi]; rfl)
    simp at this
  | some j =>
    have h1 := List.mem_of_find?_eq_some hf
    have h2 : (s.ifc j).name = (s.ifc i).name := by simpa using List.find?_some hf
    unfold State.ifcsOn at h1
    rw [List.mem_filter, decide_eq_true_eq] at h1
    have h3 : s.tail j = s.tail i := h1.2
    rw [List.inj_on_of_nodup_map hk.ifs h1.1 hi (Prod.ext h2 h3)]

theorem litChoices_ok {s : State} (L : List Lit) (h : ∀ x ∈ L, ∃ i, x = .ifc i) :
    ∃ r, litChoices s L = .ok r ∧ ∀ c, c ∈ r ↔ ∃ i, Lit.ifc i ∈ L ∧ c = s.ifcChoice i := by
  induction L with
  | nil => exact ⟨[], rfl, by simp⟩
  | cons x L ih =>
    obtain ⟨r, hr, h1⟩ := ih fun y hy => h y (List.mem_cons_of_mem _ hy)
    obtain ⟨i, rfl⟩ := h x List.mem_cons_self
    refine ⟨_, by unfold litChoices; rw [hr]; rfl, ?_⟩
    intro c
    rw [List.mem_cons, h1]
    constructor
    · rintro (rfl | ⟨j, hj, rfl⟩)
      · exact ⟨i, by simp, rfl⟩
      · exact ⟨j, List.mem_cons_of_mem _ hj, rfl⟩
    · rintro ⟨j, hj, rfl⟩
      rcases List.mem_cons.1 hj with e | hj
      · cases e; exact .inl rfl
      · exact .inr ⟨j, hj, rfl⟩

theorem offers_map {α : Type} {leads : α → ℕ → Prop} {P : ℕ → Prop} {l : List ℕ} {f : ℕ → α}
    (hl : ∀ o, o ∈ l ↔ P o) (hf : ∀ o, P o → leads (f o) o) : Offers leads P (l.map f) := by
  constructor
  · intro c hc
    obtain ⟨o, ho, rfl⟩ := List.mem_map.1 hc
    exact ⟨o, hf o ((hl o).1 ho), (hl o).1 ho⟩
  · intro o ho
    exact ⟨f o, List.mem_map_of_mem ((hl o).2 ho), hf o ho⟩

/-- **C91** After a simulation the lists of the page are exact: those of the interfaces on a node,
of the LSPs and the demands on an interface, of the demands on an LSP, of the interfaces and LSPs
on the path of a demand, and of the interfaces on the path of an LSP.  Each entry selects the
object it stands for. -/
structure Spec.ListsRight (s : State) : Prop where
  nodeIfcs : ∀ n ∈ s.nodes, ∃ l, interfacesOnNode s (s.node n).name = .ok l ∧
    Offers (LeadsToIfc s) (fun i => i ∈ s.ifs ∧ s.tail i = (s.node n).name) l
  ifcLsps : ∀ i ∈ s.ifs, ∃ l, lspsOnInterface s (s.ifc i).name (s.tail i) = .ok l ∧
    Offers (LeadsToLsp s) (fun o => o ∈ s.lsps ∧ OnPath s o i) l
  ifcDmds : ∀ i ∈ s.ifs, ∃ l, demandsOnInterface s (s.ifc i).name (s.tail i) = .ok l ∧
    Offers (LeadsToDmd s) (fun d => d ∈ s.dmds ∧ Crosses s d i) l
  lspDmds : ∀ o ∈ s.lsps, ∃ l, demandsOnLsp s ⟨s.lspSrc o, s.lspDst o, (s.lsp o).name⟩ = .ok l ∧
    Offers (LeadsToDmd s) (fun d => d ∈ s.dmds ∧ RidesThe s d o) l
  dmdPath : ∀ d ∈ s.dmds, ∃ l m,
    demandPath s ⟨s.dmdSrc d, s.dmdDst d, (s.dmd d).name⟩ = .ok (l, m) ∧
    Offers (LeadsToIfc s) (Crosses s d) l ∧ Offers (LeadsToLsp s) (RidesThe s d) m
  lspPath : ∀ o ∈ s.lsps, ∃ l,
    lspPathEntries s ⟨s.lspSrc o, s.lspDst o, (s.lsp o).name⟩ = .ok l ∧
    Offers (LeadsToIfc s) (OnPath s o) l

theorem C91_page_lists {env : Env} {s s' : State} (ht : Tidy s) (hk : UniqueKeys s)
    (hg : Grounded s) (hrun : updateSimulation env s = .ok () s') : ListsRight s' := by
  obtain ⟨s1, Δ, h⟩ := sim_spec ht.dmds ht.ends ht.ckts hrun
  have hc := h.cfg
  have hu : UniqueIfcKeys s := fun i hi j hj e => List.inj_on_of_nodup_map hk.ifs hi hj e
  have hx := C53_cross_references ht hu hrun
  have hk' : UniqueKeys s' := by
    have hd : ∀ d, (s'.dmd d).name = (s.dmd d).name := by intro d; rw [hc.dmd d]
    have hl : ∀ d, (s'.lsp d).name = (s.lsp d).name := by intro d; rw [hc.lsp d]
    have hi : ∀ d, (s'.ifc d).name = (s.ifc d).name := by intro d; rw [hc.ifc d]
    refine ⟨?_, ?_, ?_, ?_, ?_⟩
    · unfold State.nodeNames; rw [hc.nodes, hc.node]; exact hk.nodes
    · rw [hc.ifs]; simpa only [hc.tail, hi] using hk.ifs
    · rw [hc.dmds]; simpa only [hc.dmdSrc, hc.dmdDst, hd] using hk.dmds
    · rw [hc.lsps]; simpa only [hc.lspSrc, hc.lspDst, hl] using hk.lsps
    · rw [hc.srlgs, hc.srlg]; exact hk.srlgs
  have hnd : ∀ i ∈ s'.ifs, (s'.ifc i).node ∈ s'.nodes := by
    intro i hi
    rw [hc.ifs] at hi
    rw [hc.nodes, hc.ifc i]
    exact (hg.ifs i hi).2.1
  have gi : ∀ i ∈ s'.ifs, LeadsToIfc s' (s'.ifcChoice i) i := by
    intro i hi
    have hget := getIfc_key hnd hk' hi
    refine ⟨⟨s'.tail i, (s'.ifc i).name, s'.head i, (s'.ifc i).cktId, s'.utilization i,
      (s'.ifc i).cost⟩, ?_, rfl, rfl, rfl, rfl, rfl, rfl, hget⟩
    show (do let j ← s'.getIfc (s'.ifc i).name (s'.tail i); _) = _
    rw [hget]
    rfl
  have gd : ∀ d ∈ s'.dmds, LeadsToDmd s' (s'.dmdChoice d) d := fun d hd => getDemand_key hk'.dmds hd
  have gl : ∀ l ∈ s'.lsps, LeadsToLsp s' (s'.lspChoice l) l := fun l hl => getLsp_key hk'.lsps hl
  have hin : ∀ l ∈ s'.lsps, ∀ i, OnPath s' l i → i ∈ s'.ifs := by
    rintro l hl i ⟨p, c, hd, hp, hi⟩
    rw [hc.lsps] at hl
    rcases h.basic ht hl with e | ⟨p', c', hd', b, e, -, -, -, hsub⟩
    · rw [e] at hp; cases hp
    · rw [e] at hp; cases hp; exact hsub i hi
  have hrl : ∀ d ∈ s'.dmds, ∀ l, RidesThe s' d l → l ∈ s'.lsps := by
    rintro d hd l ⟨ps, p, hp, hpm, hl⟩
    rw [hc.dmds] at hd
    rw [hc.lsps]
    exact (h.lsp_mem hd hp hpm hl).1
  have hci : ∀ d ∈ s'.dmds, ∀ i, Crosses s' d i → i ∈ s'.ifs := by
    rintro d hd j ⟨ps, hp, p, hpm, hj | ⟨l, hl, ho⟩⟩
    · exact (demand_not_failed ht hrun hd hp hpm hj).1
    · exact hin l (hrl d hd l ⟨ps, p, hp, hpm, hl⟩) j ho
  refine ⟨?_, ?_, ?_, ?_, ?_, ?_⟩
  · intro n hn
    have hnode : s'.getNode (s'.node n).name = .ok n := by
      unfold State.getNode
      cases hf : s'.nodes.find? fun m => (s'.node m).name = (s'.node n).name with
      | none =>
        have := List.find?_eq_none.1 hf n hn
        simp at this
      | some m =>
        have h1 := List.mem_of_find?_eq_some hf
        have h2 := List.find?_some hf
        rw [decide_eq_true_eq] at h2
        simp only []
        rw [List.inj_on_of_nodup_map hk'.nodes h1 hn h2]
    refine ⟨_, by unfold interfacesOnNode; rw [hnode]; rfl, offers_map ?_ fun o ho => gi o ho.1⟩
    intro o
    unfold State.ifcsOn
    rw [List.mem_filter, decide_eq_true_eq]
  · intro i hi
    refine ⟨_, by unfold lspsOnInterface; rw [getIfc_key hnd hk' hi]; rfl,
      offers_map (hx.lsps i hi) fun o ho => gl o ho.1⟩
  · intro i hi
    refine ⟨_, by unfold demandsOnInterface; rw [getIfc_key hnd hk' hi]; rfl,
      offers_map (hx.dmds i hi) fun o ho => gd o ho.1⟩
  · intro o ho
    have hget := getLsp_key hk'.lsps ho
    have hno : (s'.lsp o).path = .unrouted → ∀ d ∈ s'.dmds, ¬ RidesThe s' d o := by
      rintro e d hd ⟨ps, p, hp, hpm, hl⟩
      rw [hc.dmds] at hd
      obtain ⟨is, c, hd', e'⟩ := h.ridden_routed ht hd hp hpm hl
      rw [e] at e'; cases e'
    unfold demandsOnLsp
    simp only [hget]
    by_cases e : (s'.lsp o).path = .unrouted
    · refine ⟨[], ?_, ?_⟩
      · show (match (s'.lsp o).path with | .unrouted => _ | _ => _) = _
        rw [e]
      · exact ⟨by simp, fun d hd => absurd hd.2 (hno e d hd.1)⟩
    · refine ⟨(s'.dmdsOnLsp o).map s'.dmdChoice, ?_,
        offers_map ?_ fun d hd => gd d hd.1⟩
      swap
      · intro d
        rw [hx.onLsp o ho]
        refine and_congr_right fun _ => ⟨?_, ?_⟩
        · rintro ⟨ps, a, p, b, c⟩; exact ⟨ps, p, a, b, c⟩
        · rintro ⟨ps, p, a, b, c⟩; exact ⟨ps, a, p, b, c⟩
      show (match (s'.lsp o).path with | .unrouted => _ | _ => _) = _
      split
      · next e' => exact absurd e' e
      · rfl
  · intro d hd
    have hget := getDemand_key hk'.dmds hd
    unfold demandPath
    simp only [hget]
    cases hp : (s'.dmd d).path with
    | none =>
      refine ⟨[], [], ?_, ⟨by simp, ?_⟩, ⟨by simp, ?_⟩⟩
      · show (match (s'.dmd d).path with | none => _ | some _ => _) = _
        rw [hp]
      · rintro i ⟨ps, e, -⟩
        rw [hp] at e; cases e
      · rintro l ⟨ps, p, e, -⟩
        rw [hp] at e; cases e
    | some ps =>
      have hall : AllRouted s' [d] := allRouted_of_sim ht hrun fun e he => by
        rw [List.mem_singleton] at he
        subst he
        exact ⟨by rw [← hc.dmds]; exact hd, by rw [hp]; simp⟩
      obtain ⟨r, hr, h1, h2⟩ := findLit_ok [d] hall
      obtain ⟨is, his, h3⟩ := litChoices_ok (s := s') r.1 fun x hx => by
        obtain ⟨i, hi, -⟩ := (h1 x).1 hx; exact ⟨i, hi⟩
      refine ⟨is, r.2.map s'.lspChoice, ?_, ⟨?_, ?_⟩, offers_map ?_ fun l hl => gl l (hrl d hd l hl)⟩
      · show (match (s'.dmd d).path with | none => _ | some _ => _) = _
        rw [hp]
        simp only [bind, Except.bind, hr, his]
      · intro c hc'
        obtain ⟨i, hi, rfl⟩ := (h3 c).1 hc'
        obtain ⟨j, e, f, hf, hcr⟩ := (h1 _).1 hi
        cases e
        rw [List.mem_singleton] at hf
        subst hf
        exact ⟨i, gi i (hci f hd i hcr), hcr⟩
      · intro i hi
        exact ⟨s'.ifcChoice i, (h3 _).2 ⟨i, (h1 _).2 ⟨i, rfl, d, by simp, hi⟩, rfl⟩, gi i (hci d hd i hi)⟩
      · intro l
        rw [h2]
        simp
  · intro o ho
    have hget := getLsp_key hk'.lsps ho
    unfold lspPathEntries
    simp only [hget]
    rcases h.basic ht (by rw [← hc.lsps]; exact ho) with e | ⟨is, c, hd, b, e, -⟩
    · refine ⟨[], ?_, by simp, ?_⟩
      · show (match (s'.lsp o).path with | .unrouted => _ | _ => _) = _
        rw [e]
      · rintro i ⟨is, c, hd, e', -⟩
        rw [e] at e'; cases e'
    · refine ⟨is.map s'.ifcChoice, ?_, offers_map ?_ fun i hi => gi i (hin o ho i hi)⟩
      · show (match (s'.lsp o).path with | .unrouted => _ | _ => _) = _
        rw [e]
        have hh : lspHops s' o = .ok is := by unfold lspHops; rw [e]
        simp only [bind, Except.bind, hh]
      · intro i
        constructor
        · intro hi; exact ⟨is, c, hd, e, hi⟩
        · rintro ⟨is', c', hd', e', hi⟩
          rw [e] at e'; cases e'; exact hi

set_option maxRecDepth 20000 in
example : Tidy Ex.hitch ∧ UniqueKeys Ex.hitch ∧ Grounded Ex.hitch ∧
    updateSimulation Env.default Ex.hitch =
      .ok () (finalState (updateSimulation Env.default) Ex.hitch) ∧
    demandsOnInterface (finalState (updateSimulation Env.default) Ex.hitch) "ab1" "A" =
      .ok [⟨"A", "C", "x"⟩, ⟨"A", "B", "y"⟩] ∧
    (demandPath (finalState (updateSimulation Env.default) Ex.hitch) ⟨"A", "C", "x"⟩).map
      Prod.snd = .ok [⟨"A", "B", "l"⟩] :=
  ⟨by decide +kernel, ⟨by decide +kernel, by decide +kernel, by decide +kernel,
    by decide +kernel, by decide +kernel⟩, ⟨by decide +kernel, by decide +kernel,
    by decide +kernel, by decide +kernel, by decide +kernel⟩, ok_of_raised (by decide +kernel),
    by decide +kernel, by decide +kernel⟩

end NTM
