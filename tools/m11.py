import json
M=[]
def m(d,f,old,new,edit,breaks): M.append(dict(zip(("def","file","old","new","edit","breaks"),(d,f,old,new,edit,breaks))))
V='Model/VehicleSprites.lean'; N='Model/VehicleNumbers.lean'; T='Model/VarTables.lean'; P='Model/Py.lean'; S='Model/Script.lean'
m('liveriesAccepted',V,"l.length == 8","l.length ≤ 8","shorter liveries accepted","liveries have eight sprites (C68)")
m('graphics',V,"action1 :: (l :: ls).flatten","(l :: ls).flatten ++ [action1]","sets announced after the sprites","liveries drawn (C68)")
m('graphics',V,"action1 :: (l :: ls).flatten","action1 :: l","sprites of further liveries left out","liveries drawn (C68)")
m('liveryCases',V,"(Int.ofNat i, layouts.getD i 0)","(Int.ofNat (i + 1), layouts.getD i 0)","liveries counted from one","livery chosen by the cargo subtype (C68)")
m('shipSprites',V,"purchaseSprites purchase ++ names ++ [definition] ++ graphics liveries ++ maps","purchaseSprites purchase ++ names ++ [definition] ++ maps ++ graphics liveries","sprites after the map","liveries drawn (C68)")
m('trainSprites',V,"purchaseSprites purchase ++ graphics head ++ names ++ [definition] ++ maps ++ parts.flatMap Part.sprites","purchaseSprites purchase ++ graphics head ++ names ++ [definition] ++ parts.flatMap Part.sprites ++ maps","map of the engine after its parts","engine draws its own liveries, not those of a part (C68)")
m('Part.sprites',V,"graphics p.liveries ++ [p.definition] ++ p.maps","[p.definition] ++ p.maps ++ graphics p.liveries","part's sprites after its map","parts draw their liveries (C68)")
m('purchaseSprites',V,"[set, sprite, layout]","[layout, set, sprite]","purchase layout before its set","purchase sprite drawn (C68)")
m('addRow',V,"if row.length ≠ w then none else some (rows.length, rows ++ [row])","if row.length ≠ w then none else some (rows.length + 1, rows ++ [row])","row number off by one","row number is its place (C68)")
m('tableSprites',V,"some (action1 :: rows.flatten)","some (action1 :: rows.reverse.flatten)","rows in reverse","rows drawn (C68)")
m('speedValue',N,"(precise + 2).fdiv 4","precise.fdiv 4","rounding dropped","road vehicle speed (C69)")
m('rvProps',N,"min (speedValue precise) 0xff)","min precise 0xff)","property 15 in the wrong unit","road vehicle speed (C69)")
m('rvCallback',N,"0x400 ≤ precise","0x400 < precise","callback not used at 0x400","road vehicle speed (C69)")
m('rvMph',N,"speed * 16 + 4).fdiv 5","speed * 16).fdiv 10","wrong unit","road vehicle mph (C69)")
m('rvShorten',N,"1 ≤ l ∧ l ≤ 8","0 ≤ l ∧ l ≤ 8","length 0 accepted","length from 1 to 8 (C69)")
m('checkSpeed',N,"(table.length : Int) < speed then none","(table.length : Int) < speed + 1 then none","boundary tested correctly (the claim stays true)","none: equivalent, the index fails either way")
m('shipKmhTable',N,"340, 342, 342, 344","340, 342, 344, 344","table entry corrected","Ship.kmh exact values (C69)")
m('trainMph',N,"(speed * 16 + 4).fdiv 10","(speed * 16).fdiv 10","rounding dropped","Train.mph nearest (C69)")
m('visualEffect',N,"* 0x7f","* 0x80","wagon power as bit 7","visual effect statement (C69)")
m('weightProps',N,"(weight.fmod 256, weight.fdiv 256)","(weight.fdiv 256, weight.fmod 256)","bytes swapped","weight (C69)")
m('partWeight',N,"given.map fun _ => weightProps train","given.map fun w => weightProps w","the given weight used","part weight statement (C69)")
m('objectSize',N,"pyOr (y * 16) x","pyOr (x * 16) y","dimensions swapped","object size (C69)")
m('overlay',T,"b.foldl putVar a","a.foldl putVar b","globals override the feature","names stand for their fields (C67)")
m('vaVars',T,"| 0x02 => overlay globalVars shipVars","| 0x02 => overlay globalVars rvVars","ship uses the table of road vehicles","tables (C67)")
m('scopeFeature',T,"| 0x09 => some 0x0a","| 0x09 => some 0x09","related object of an industry tile","related names (C67)")
m('scopeFeature',T,"| 0x0a => some 0xff","| 0x0a => some 0x0a","town of an industry","related town refused (C67)")
m('switchCode',T,"let g ← scopeFeature feature related","let g ← scopeFeature feature false","related scope ignored","related names (C67)")
m('Node.names',T,"| .expr _ a b => a.names ++ b.names","| .expr _ a b => a.names","names of right operands not checked","acceptance of codes (C67)")
m('substArg',S,"| none => .ref false v\n","| none => .other\n","unknown number lost","script (C63)")
m('genStep',S,"refs := dictSet g.refs rid g.vars.length","refs := dictSet g.refs rid (g.vars.length + 1)","wrong action remembered","script (C63)")
m('genStep',S,"let c := (g.count.lookup rid).getD 0 + 1","let c := 1","count not kept: names repeat","names of the script / script (C63)")
m('lines',S,"⟨v, a, r.map (formatRef vars)⟩ :: lines vars acts refs vs","⟨v, a, r.map (formatRef vars)⟩ :: lines vars acts refs (v :: vs)","name not advanced","script (C63)")
m('varName',S,"'_' :: Strings.dec count","Strings.dec count","separator dropped: 1,12 and 11,2 alike","names are distinct (C63)")
m('climateEx',P,"v = 15 then .grf \"ALL_CLIMATES\"","v = 7 then .grf \"ALL_CLIMATES\"","wrong mask for all climates","value printed evaluates to itself (C66)")
m('climateEx',P,"0 < pyAnd c.2 v","0 = pyAnd c.2 v","complement","value printed evaluates to itself (C66)")
m('rangeKey',P,"if low = high then .int (utoi32 low) else","if low = high then .int low else","unsigned number for single values","ranges made again (C66)")
m('propEx',P,"| .size, .pair x y => some (.tuple [.int x, .int y])","| .size, .pair x y => some (.tuple [.int y, .int x])","size printed swapped","definition made again (C66)")
m('propEx',P,"(\"\", .int d.year), (\"\", .int d.month), (\"\", .int d.day)","(\"\", .int d.year), (\"\", .int d.day), (\"\", .int d.month)","day and month swapped","definition made again (C66)")
m('py',P,"(\"set_count\", .int a.setCount), (\"sprite_count\", .int a.spriteCount),\n        (\"first_set\", optEx a.firstSet)","(\"set_count\", .int a.setCount), (\"sprite_count\", .int a.spriteCount)","first_set not printed","action made again (C66)")
m('py',P,"(\"source1\", .int a.source1), (\"source2\", .int a.source2)","(\"source1\", .int a.source2), (\"source2\", .int a.source1)","sources swapped","action made again (C66)")
m('indentLines',P,"| [l] => List.replicate 8 ' ' ++ l","| [l] => l.drop 8","last line cut","code made again (C66)")
m('splitLines',P,"if c = '\\n' then [] :: splitLines r else","if c = '\\n' then splitLines r else","line ends lost","code made again (C66)")
m('constants',P,"\"ROADTYPE\", \"TRAMTYPE\"","\"TRAMTYPE\", \"ROADTYPE\"","names of features swapped consistently: printing and evaluation agree","none (both sides use the table)")
m('callVal',P,"else if f = \"CB\" then (match args with | [(\"\", .int v)] => some (.target (mkCB v))","else if f = \"CB\" then (match args with | [(\"\", .int v)] => some (.target (.ref v))","callback results as references","references (C66)")
json.dump(M,open('/tmp/gen/m11.json','w'))
