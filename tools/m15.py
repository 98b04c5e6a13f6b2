import json
L=[]
def m(d,old,new,edit,breaks,f='Model/Report.lean'): L.append(dict(zip(('def','file','old','new','edit','breaks'),(d,f,old,new,edit,breaks))))
m('countSprite','| .cached => { n with cached := n.cached + 1, sprites := n.sprites + 1 }','| .cached => { n with cached := n.cached + 1 }','cached sprites not counted as sprites','C87: number of sprites')
m('countSprite','| .made => { n with sprites := n.sprites + 1 }','| .made => { n with uncacheable := n.uncacheable + 1, sprites := n.sprites + 1 }','made sprites counted as uncacheable','C87: uncacheable')
m('countSprite','uncacheable := n.uncacheable + 1, sprites := n.sprites + 1 }\n\n','cached := n.cached + 1, sprites := n.sprites + 1 }\n\n','sounds counted as cached','C87: cached')
m('countDuplicate','duplicate := n.duplicate + len }','duplicate := n.duplicate + 1 }','duplicates counted once per action','C87: real sprites = sprites - duplicates')
m('countDuplicate','if (st.hashes.lookup (hash data)).isSome then','if (st.hashes.lookup (hash data)).isNone then','test inverted','C87: duplicates')
m('countStep','if s.sid ∈ st.written then n\n','if s.sid ∈ st.written then { n with duplicate := n.duplicate + 1 }\n','an action added twice counts as a duplicate','C87: duplicates')
m('countStep','if s.sid ∈ st.written then n\n  else','','an action added twice is counted twice','C87: number of sprites')
m('report','some (sn.2, (sn.1.file ++ [0, 0, 0, 0]).length)','some (sn.2, sn.1.file.length)','size taken before the end mark','C87: reported size')
m('report','some (sn.2, (sn.1.file ++ [0, 0, 0, 0]).length)','some (sn.2, f.1.length + 4)','size of the data section only','C87: reported size')
m('bump','(old.1 + 1, old.2 + size)','(old.1 + 1, size)','size overwritten','C87: sum of bytes')
m('bump','(old.1 + 1, old.2 + size)','(1, old.2 + size)','count overwritten','C87: how many')
m('countAction','if 0xfd < id then','if 0xfd ≤ id then','boundary of the context test','C87: line of references')
m('countAction','if 0xfd < id then c.kind else .default','c.kind','context for all numbers','C87: lines')
m('countEntry','countAction c d 0xfd (4 + 4 * 2 + 1)','countAction c d 0xfd (4 + 4 + 1)','the size corrected for references only','C87: four bytes too many for each')
m('countEntry','countAction c d a.toNat ((a :: bs).length + 4 * 2 + 1)','countAction c d a.toNat (bs.length + 4 * 2 + 1)','number byte not counted','C87: sum of bytes')
m('countEntry','| .empty => d','| .empty => countAction c d 0 (1 + 4 * 2 + 1)','one-byte actions counted as action 0','C87: one-byte actions')
m('countEntries','countEntries (Extract.step c e) (countEntry c d e) es','countEntries (Extract.step c e) (countEntry (Extract.step c e) d e) es','context after the entry','C87: lines of 0xfe and 0xff')
m('countReal','(8 + r.2.length)','(4 + r.2.length)','length field not counted','C87: sum of bytes')
m('countReal','bump d (0xff, (c.get r.1).1)','bump d (0xff, c.kind)','kind of the context at the end','C87: lines of real sprites')
m('stats','p.reals.foldl (countReal c) d','p.reals.foldl (countReal {}) d','context forgotten','C87: lines of real sprites')
json.dump(L,open('/tmp/gen/m15.json','w'))
