#!/usr/bin/env python3
"""Generate lean/Verif/Model/Tables.lean from /repo/src/universe.rs and /repo/src/vanilladoom.rs."""
import re
u = open('/repo/src/universe.rs').read()
v = open('/repo/src/vanilladoom.rs').read()
def line(s, i): return s.count('\n', 0, i) + 1
def strip(s): return re.sub(r'//[^\n]*', '', s)
out = ['''import Verif.Model.Prim
/-!
# Stock tables: src/universe.rs, src/vanilladoom.rs

GENERATED by tools/tables.py from the source text; do not edit.
-/

namespace Idc

/-- src/universe.rs:11-26 `ThingCategory`. -/
inductive ThingCategory where
  | PlayerStart
  | Monster
  | Ammo
  | Weapon
  | HealthArmor
  | Powerup
  | Key
  | Decoration
  | Miscellaneous
  deriving DecidableEq, Repr

/-- src/universe.rs:28-56 `ActorType`.  Simplification: sounds, flags, reaction time, pain chance and
speed, damage, mass are left out (no code reads them). -/
structure ActorType where
  zdoom_actor_class : String
  category : ThingCategory
  doomednum : Option UInt32
  spawnhealth : Nat
  radius : Nat
  height : Nat
  deriving DecidableEq, Repr
''']
for name in ['DOOM1_FLATS', 'DOOM1_TEXTURES', 'DOOM2_FLATS', 'DOOM2_TEXTURES']:
    m = re.search(r'pub static %s: \[&str; (\d+)\] = \[(.*?)\];' % name, u, re.S)
    names = re.findall(r'"([^"]*)"', m.group(2))
    assert len(names) == int(m.group(1)), name
    a, b = line(u, m.start()), line(u, m.end())
    ident = name.lower().split('_')[0] + name.lower().split('_')[1].capitalize()
    out.append('/-- src/universe.rs:%d-%d `%s`. -/' % (a, b, name))
    out.append('def %s : List String := [' % ident)
    row = '  '
    for i, n in enumerate(names):
        t = '"%s"' % n + (',' if i + 1 < len(names) else ']')
        if len(row) + len(t) > 100:
            out.append(row.rstrip()); row = '  '
        row += t + ' '
    out.append(row.rstrip() + '\n')
m = re.search(r'pub static DOOM2_ACTORS: \[ActorType; (\d+)\] = \[(.*?)\n\];', v, re.S)
n = int(m.group(1))
acts = re.findall(r'ActorType\s*\{(.*?)\}', strip(m.group(2)), re.S)
assert len(acts) == n, len(acts)
out.append('/-- src/vanilladoom.rs:%d-%d `DOOM2_ACTORS`. -/' % (line(v, m.start()), line(v, m.end())))
out.append('def doom2Actors : List ActorType := [')
for i, a in enumerate(acts):
    g = lambda k: re.search(r'\b%s\s*:\s*([^,\n]*),' % k, a).group(1).strip()
    d = g('doomednum')
    d = 'none' if d == 'None' else 'some ' + re.match(r'Some\((-?\w+)\)', d).group(1)
    nums = [str(eval(g(k))) for k in ('spawnhealth', 'radius', 'height')]
    out.append('  ⟨%s, .%s, %s, %s⟩%s' % (g('zdoom_actor_class'), g('category').split('::')[1], d, ', '.join(nums), ',' if i + 1 < n else ']'))
out.append('''
/-- src/universe.rs:60-69 `lookup_thing_type`: the first actor with that number. -/
def lookupThingType (doomednum : UInt32) : Option ActorType :=
  let rec go : List ActorType → Option ActorType
    | [] => none
    | t :: ts =>
      match t.doomednum with
      | some den => if den = doomednum then some t else go ts
      | none => go ts
  go doom2Actors

end Idc''')
open('/verif/lean/Verif/Model/Tables.lean', 'w').write('\n'.join(out) + '\n')
