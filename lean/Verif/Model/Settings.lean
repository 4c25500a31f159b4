import Verif.Model.Objects

/-!
# Assignments to the attributes of objects between simulations
-/

namespace NTM

/-- an assignment to an attribute of an object -/
inductive Setting where
  /-- `interface.cost = c` -/
  | cost (i : ℕ) (c : ℤ)
  /-- `interface.capacity = q` -/
  | capacity (i : ℕ) (q : ℚ)
  /-- `interface.rsvp_enabled = b` -/
  | rsvp (i : ℕ) (b : Bool)
  /-- `interface.percent_reservable_bandwidth = q` -/
  | percent (i : ℕ) (q : ℚ)
  /-- `demand.traffic = q` -/
  | traffic (d : ℕ) (q : ℚ)
  /-- `lsp.configured_setup_bandwidth = q` -/
  | configured (l : ℕ) (q : Option ℚ)
  /-- `lsp.manual_metric = m` -/
  | metric (l : ℕ) (m : ℤ)
  /-- `node.igp_shortcuts_enabled = b` -/
  | shortcuts (n : ℕ) (b : Bool)
  deriving DecidableEq

/-- The setter an assignment runs: `Interface.cost` and `Interface.capacity`
(`pyNTM/interface.py:186-202`), `RSVP_LSP.manual_metric` (`pyNTM/rsvp.py:170-191`) and
`Node.igp_shortcuts_enabled` (`pyNTM/node.py:112-121`); the others are plain attributes
(`pyNTM/interface.py:35-36`, `pyNTM/demand.py:13`, `pyNTM/rsvp.py:46`).
Simplification: the shortcut setting is a Boolean, so its type test cannot fail. -/
def Setting.assign : Setting → Py Unit
  | .cost i c => setCost i c
  | .capacity i q => setCapacity i q
  | .rsvp i b => fun s => .ok () (s.updIfc i fun x => { x with rsvpEnabled := b })
  | .percent i q => fun s => .ok () (s.updIfc i fun x => { x with pct := q })
  | .traffic d q => fun s => .ok () (s.updDmd d fun x => { x with traffic := q })
  | .configured l q => fun s => .ok () (s.updLsp l fun x => { x with configured := q })
  | .metric l m => fun s =>
    match (s.lsp l).assignMetric m with
    | .ok x => .ok () (s.updLsp l fun _ => x)
    | .error e => .error e s
  | .shortcuts n b => fun s => .ok () (s.updNode n fun x => { x with shortcuts := b })

end NTM
