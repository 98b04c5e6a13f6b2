import json,subprocess
m=json.load(open('/verif/MANIFEST.json'))
ths=sorted({t for c in m['claims'] for t in c['theorems']})
open('/tmp/ax.lean','w').write('import Verif\n'+'\n'.join('#print axioms '+t for t in ths))
