import json
M=[]
def m(d,f,o,n,e,b): M.append({"def":d,"file":"Model/"+f+".lean","old":o,"new":n,"edit":e,"breaks":b})
T="Extract"
m("Ctx.consume",T,"c.amount - 1 ≤ 0","c.amount - 1 < 0","one entry more belongs to a group","sounds and groups by their announcing actions (C78)")
m("Ctx.setGraphics",T,"(count + 1)","count","group names not counted","names of groups differ (C78)")
m("Ctx.setSound",T,"kind := .sound, group := none","kind := .graphics, group := none","sounds taken for graphics","sounds of sound parts (C78)")
m("announce",T,"\"action_a\".toList","\"action5\".toList","groups of Action A named like those of Action 5","names of groups (C78)")
m("stepPseudo",T,"announce c.reset a bs","announce c a bs","context not reset after sounds","kinds of sprites (C78)")
m("rawSound",T,"++ name ++ [0] ++ data","++ name ++ data","no zero after the name","sound_gains_byte states the byte saved (C78)")
m("readSound",T,"num - 3 - l.toNat","num - 4 - l.toNat","right size (the fix)","sound_gains_byte states the fault (C78)")
m("Real.pixel",T,"if r.hasAlpha then r.alpha x y else 255","r.alpha x y","opacity of sprites without alpha","pixels as in the file (C79)")
m("rgbaPath",T,"\"_32bpp.png\".toList","\".png\".toList","both sheets in one file","sprites come out (C79)")
m("filesOf",T,"if anyMask rs then [(palPath g","if anyColour rs then [(palPath g","palette sheet only saved with colours","the script finds its pictures (C79)")
m("placeGroup",T,"⟨pick rs c.index, c.x, c.y,","⟨pick rs c.index, c.y, c.x,","coordinates swapped","pixels as in the file (C79)")
m("makeVar",T,"then (res, []) else (dictSet res path (fileVar path), [.image (fileVar path) path])","then (res, []) else (dictSet res path (fileVar path), [])","variable not assigned","the script runs (C79)")
m("fileVar",T,"if c = '.' then '_' else c","if c = '_' then '.' else c","dots kept, underscores lost","variables of files differ (C79)")
m("callOf",T,"some (p.spr.xofs, p.spr.yofs, zoomText","some (p.spr.yofs, p.spr.xofs, zoomText","offsets swapped","offsets as in the file (C79)")
m("zoomNames",T,"\"ZOOM_4X\", \"ZOOM_2X\"","\"ZOOM_2X\", \"ZOOM_2X\"","zoom 4X printed as 2X","zooms as in the file (C79)")
m("evalCall",T,"if mrgb = none ∧ malpha = none ∧ mask = none then some ⟨s.w","if mrgb = none ∧ malpha = none ∧ mask ≠ none then some ⟨s.w","masks refused","sprites with masks come out (C79)")
T="Globals"
m("depotOffset",T,"⟨0x8e, 0x00,","⟨0x8f, 0x00,","another variable","the depot offset is set (C80)")
m("miscFlag",T,"⟨0x9e, 0x08, false","⟨0x9e, 0x00, false","flags overwritten","flags accumulate (C80)")
m("miscFlag",T,"(2 ^ flag.toNat)","(2 * flag)","flag number instead of bit","the flag is set (C80)")
m("engineOverride",T,"[source.getD (.bytes grfid), target]","[target, source.getD (.bytes grfid)]","source and target swapped","the right file is replaced (C80)")
T="Restore"
m("restore",T,"rgb.addr + 3 ≠ alpha.addr","rgb.addr ≠ alpha.addr","another start accepted","pixels joined (C81)")
m("restore",T,"((flat.fmod x).fdiv y)","(flat.fdiv y)","column counted over all rows","parts of pictures (C81)")
m("restore",T,"if b.shape.take 2 = alpha.shape then some (some b)\n          else","","whole picture not recognised","arrangement_lost states the fault (C81)")
m("slice3",T,"sliceDim n2 oz 4","sliceDim n2 oz 3","opacity cut off","pixels joined (C81)")
m("restore",T,"(flat.fdiv x) ((flat","(flat.fdiv x + 1) ((flat","one row further","parts of pictures (C81)")
m("contiguousFrom",T,"if n = 1 then contiguousFrom step r else ","","dimensions of size one count","(equivalent for parts?)")
m("composed",T,"joinColumns (SpriteData.rows 3 (h * w) (rgb.elems M)) (SpriteData.rows 1 (h * w) (alpha.elems M))","joinColumns (SpriteData.rows 1 (h * w) (alpha.elems M)) (SpriteData.rows 3 (h * w) (rgb.elems M))","opacity before colour","pixels joined (C81)")
T="Gif"
m("extr2",T,"((-(c : Int) - 1) * p)","((-(c : Int)) * p)","~c replaced by -c","ticks of the game (C82)")
m("extr",T,"(c * p) % 65536","(c * p) % 65535","wrong modulus","ticks of the game (C82)")
m("anims",T,"extr 320 5, 128, 1⟩","extr 320 5, 64, 1⟩","cycle of dark water too short","loops seamlessly (C82)")
m("anims",T,"extr 128 15, 64, 3⟩","extr 128 15, 64, 1⟩","glittery water without steps","colours of the game (C82)")
m("anims",T,"⟨0xF1, 4,","⟨0xF2, 4,","lighthouse at the wrong place","colours of the game (C82)")
m("turned",T,"indices (j % step) j step","indices 0 j step","wrap starts at 0","colours of the game (C82)")
m("initCycle",T,"(a.func (8 * i))","(a.func i)","counter per tick 1 instead of 8","ticks of the game (C82)")
m("nextRemap",T,"nextRemap pal i cs (cur + c.size) r'","nextRemap pal i cs cur r'","ranges share colours","colours of the game (C82)")
m("frame",T,"nextRemap pal i cs 1 (List.replicate 256 0) [(0, 0, 0)]","nextRemap pal i cs 0 (List.replicate 256 0) []","first colour transparent","colours of the game (C82)")
m("frame",T,"(List.replicate 256 0)","(List.range 256)","unanimated pixels drawn with the small palette","colours of the game (C82)")
m("saveGif",T,"if occurs m 0xEF 2 then none","if occurs m 0xEF 1 then none","second tower colour accepted","saved_iff (C82)")
m("hasColours",T,"0xE8 + k","0xE7 + k","off by one","saved_iff (C82)")
m("maxCycle",T,"(max c.frames.length)","(min c.frames.length)","shortest cycle","loops seamlessly (C82)")
json.dump(M,open('/tmp/gen/m13.json','w'))
