import re
src=open('/repo/grf/actions.py').read().split('\n')
FM={"'B'":'.B',"'b'":'.b',"'W'":'.W',"'D'":'.D',"'L'":'.L',"'n*B'":'.nB',"'8*B'":'.B8',"'2*L'":'.L2',"'n*L'":'.nL',"'3*B'":'.B3',"'4*B'":'.B4',"'n*m*W'":'.nmW',"'V'":'.V',"'0E'":'.zE',"'12*32*B'":'.snow',
'DateProperty()':'.date','IDProperty()':'.id','IDProperty(extended=True)':'.idx','ClimateProperty()':'.climate','CargoListProperty()':'.byteList','OldStationLayoutProperty()':'.oldStation','NewStationLayoutProperty()':'.newStation','BridgeLayoutProperty()':'.bridge','TileAcceptanceProperty()':'.accept','MultiDictProperty()':'.multiDict','IndustryLayoutsProperty()':'.layouts','SizeTupleProperty()':'.size'}
tabs={}; cur=None; rng={}
for i,l in enumerate(src,1):
    m=re.match(r'(ACTION0_\w+_PROPS) = \{',l)
    if m: cur=m.group(1); tabs[cur]=[]; rng[cur]=[i,None]; continue
    if cur and l.startswith('}'): rng[cur][1]=i; cur=None; continue
    if cur:
        if '**ACTION0_COMMON' in l: tabs[cur]+=tabs['ACTION0_COMMON_VEHICLE_PROPS']; continue
        m=re.match(r"\s*0x([0-9A-Fa-f]+): *\('(\w+)', *('[^']*'|\w+\([^)]*\))",l)
        if m: tabs[cur].append((int(m.group(1),16),m.group(2),FM[m.group(3)]))
        elif l.strip() and not l.strip().startswith('#'): print('??',i,l)
order=['TRAIN','RV','SHIP','AIRCRAFT','STATION','BRIDGE','HOUSE','GLOBAL','INDUSTRY_TILE','INDUSTRY','CARGO','SOUND_EFFECT','OBJECT','RAILTYPE','ROADTYPE','ROAD_STOP']
fid={'TRAIN':[0],'RV':[1],'SHIP':[2],'AIRCRAFT':[3],'STATION':[4],'BRIDGE':[6],'HOUSE':[7],'GLOBAL':[8],'INDUSTRY_TILE':[9],'INDUSTRY':[10],'CARGO':[11],'SOUND_EFFECT':[12],'OBJECT':[15],'RAILTYPE':[16],'ROADTYPE':[18,19],'ROAD_STOP':[20]}
o=['''/-!
# The property tables of Action 0 (`grf/actions.py:330-1257`), generated from the source text by `tools/proptab.py`
-/
namespace Grf.PropC

/-- Property formats: the format strings of the tables and the `Property` objects. -/
inductive Fmt where
  | B | b | W | D | L | Bx | nB | B8 | L2 | nL | B3 | B4 | nmW | V | zE | snow
  | date | id | idx | climate | byteList | oldStation | newStation | bridge | accept | multiDict | layouts | size
deriving DecidableEq, Repr

/-- One property: code, name, format. -/
structure Entry where
  code : Nat
  name : String
  fmt : Fmt
deriving DecidableEq, Repr
''']
for t in order:
    k=f'ACTION0_{t}_PROPS'
    nm=t.lower().replace('_','')+'Props'
    o.append(f"/-- `{k}`, `grf/actions.py:{rng[k][0]}-{rng[k][1]}`. -/\ndef {nm} : List Entry :=\n  [" + ',\n   '.join(f'⟨0x{c:02x}, "{n}", {f}⟩' for c,n,f in tabs[k])+']\n')
o.append('/-- `ACTION0_PROPS[feature]` (`grf/actions.py:1241-1259`), by feature id; `none` is `KeyError`. -/\ndef table : Nat → Option (List Entry)')
for t in order:
    for f in fid[t]: o.append(f"  | {f} => some {t.lower().replace('_','')}Props")
o.append('  | _ => none\n')
o.append('''/-- `ACTION0_PROPS[feature][code]`. -/
def byCode (f code : Nat) : Option Entry := (table f).bind fun t => t.find? fun e => e.code == code

/-- `ACTION0_PROP_DICT[feature][name]` (`grf/actions.py:1261-1264`): a dictionary comprehension keeps the last entry with a
name. -/
def byName (f : Nat) (name : String) : Option Entry := (table f).bind fun t => t.reverse.find? fun e => e.name == name

end Grf.PropC''')
open('/verif/lean/Verif/Model/PropTables.lean','w').write('\n'.join(o)+'\n')
print({k:(len(v),rng[k]) for k,v in tabs.items()}, sum(len(v) for v in tabs.values()))
