import glob,os
os.chdir('/verif/lean')
fs=sorted(f[:-5].replace('/','.') for f in glob.glob('Verif/**/*.lean',recursive=True))
order={'Core':0,'Model':1,'Spec':2,'Lemmas':3,'Props':4}
fs.sort(key=lambda f:(order.get(f.split('.')[1],0),f))
open('Verif.lean','w').write(''.join(f'import {f}\n' for f in fs))
